import Verif.Props.Bitcoin
import Verif.Props.Locking
import Verif.Proof.TxSign
import Verif.Model.Tx
/-
Property C125: coins paid to an address of this library can be spent by the rules of Bitcoin (Spec/Bitcoin.lean) with the
scripts and witnesses that it makes; and addresses for which they cannot.
-/
namespace Toku.Props
open Toku Toku.Spec Toku.VM Toku.Script Toku.Locking Toku.Tx
open Toku.Spec.Bitcoin (Rules Eval EvalScript IsP2SH VerifyScript VerifyP2WSH VerifyP2WPKH Truthy consensus library isCond Multi NumIn)

variable {R : Rules} {hash : Bytes → Bytes} {check : Bytes → Bytes → Option Bool}

/-- A list of pushes. -/
theorem eval_pushes : ∀ (ts : List Token) (s : Stack) (n : ℕ), (∀ t ∈ ts, IsPush t) →
    (R.limits = true → (∀ t ∈ ts, t.data.length ≤ 520) ∧ ts.length + s.length ≤ 1000 ∧ n ≤ 201) →
    Eval R hash check ts ⟨s, [], n⟩ ⟨(ts.map pushValue).reverse ++ s, [], n⟩ := by
  intro ts
  induction ts with
  | nil => intro s n _ _; exact .nil _
  | cons t ts ih =>
    intro s n hp hl
    obtain ⟨hv, ht⟩ := hp t List.mem_cons_self
    have hc : ¬ isCond t.op := by
      rintro (h | h | h | h) <;> rw [h] at ht <;> exact absurd ht (by decide)
    have ho : Bitcoin.Op R hash check t s (pushValue t :: s) 0 := by
      unfold pushValue
      by_cases h0 : t.op.toNat = 0
      · rw [if_pos h0]
        have hd : t.data = [] := by
          have := hv.2
          have e : t.op = 0 := UInt8.toNat_inj.mp h0
          rw [e, if_neg (by decide)] at this
          exact List.eq_nil_of_length_eq_zero (by have e : lenWidth 0 = 0 := by decide
                                                  rw [e] at this; omega)
        rw [← hd]
        exact .push _ _ (by omega)
      · rw [if_neg h0]
        by_cases h1 : t.op.toNat ≤ 0x4e
        · rw [if_pos h1]; exact .push _ _ h1
        · rw [if_neg h1]
          refine .num _ _ ?_ ht
          have := hv.1
          rcases supported_cases t.op this with h | h | h | h | h | h | h | h | h | h | h | h | h | h | h | h | h | h | h | h | h | h <;>
            first | omega | (exfalso; rw [h] at ht h1; revert ht h1; decide)
    have hk : (if 0x60 < t.op.toNat then 1 else 0) = 0 := if_neg (by omega)
    have := ih (pushValue t :: s) n (fun x hx => hp x (List.mem_cons_of_mem _ hx)) (fun h => by
      obtain ⟨a, b, c⟩ := hl h
      refine ⟨fun x hx => a x (List.mem_cons_of_mem _ hx), ?_, c⟩
      rw [List.length_cons] at b ⊢; omega)
    refine .cons _ _ _ _ _ _ _ 0 _ (.run _ _ _ _ _ hc (fun _ h => nomatch h) ho) (fun h => ?_) ?_
    · obtain ⟨a, b, c⟩ := hl h
      refine ⟨a t List.mem_cons_self, ?_, ?_⟩
      · rw [List.length_cons] at b ⊢; omega
      · rw [hk]; omega
    · rw [hk]
      simpa using this

private theorem numIn_any {x : Bytes} {n : Int} (h : ScriptNum.make x 4 = .ok n) : NumIn R x n := by
  have := (make_iff x n).mp h
  exact ⟨this.1, fun _ => this.2.1 rfl, this.2.2⟩

private theorem multi_any {sigs keys : List Bytes} {b : Bool} (h : Multi library check sigs keys b) : Multi R check sigs keys b := by
  induction h with
  | done keys => exact .done keys
  | few sigs keys hl => exact .few sigs keys hl
  | hit sig sigs key keys b hl hs hc _ ih => exact .hit _ _ _ _ _ hl (fun _ => hs rfl) hc ih
  | miss sig sigs key keys b hl hs hc _ ih => exact .miss _ _ _ _ _ hl (fun _ => hs rfl) hc ih

/-- Signatures that match keys in order satisfy CHECKMULTISIG. -/
theorem multi_of_matching {env : Env} {S K : List Bytes} (ho : Oracles env S K) (hS : ∀ s ∈ S, s ≠ [])
    (hl : S.length ≤ K.length) (hm : Matching (SigOk env) S K) : Multi R (checkOf env) S.reverse K.reverse true := by
  obtain ⟨b, hb, hiff⟩ := multisigLoop_spec ho K.reverse (fun k hk => List.mem_reverse.mp hk) S.reverse
    (fun s hs => hS s (List.mem_reverse.mp hs)) (fun s hs => List.mem_reverse.mp hs) (by simpa using hl)
  have : b = true := hiff.mpr (matching_reverse.mpr hm)
  subst this
  exact multi_any ((multi_iff env _ _ _ (by simpa using hl)).mp hb)

theorem isPush_data {t : Token} (h : IsPush t) : t.data.length ≤ (pushValue t).length ∧ (pushValue t).length ≤ t.enc.length := by
  obtain ⟨hv, ht⟩ := h
  have hw : ∀ op : UInt8, (op = 0 ∨ 0x4e < op.toNat) → op.toNat ≤ 0x60 → ¬ Direct op ∧ lenWidth op = 0 := by
    apply Base58.forall_uint8; decide +kernel
  have hz : (t.op = 0 ∨ 0x4e < t.op.toNat) → t.data.length = 0 := by
    intro h
    obtain ⟨h1, h2⟩ := hw t.op h ht
    have := hv.2
    rw [if_neg h1, h2] at this
    omega
  rw [Script.enc_length]
  unfold pushValue
  by_cases h0 : t.op.toNat = 0
  · rw [if_pos h0, hz (Or.inl (UInt8.toNat_inj.mp h0))]
    simp
  · rw [if_neg h0]
    by_cases h1 : t.op.toNat ≤ 0x4e
    · rw [if_pos h1]; omega
    · rw [if_neg h1, hz (Or.inr (by omega))]
      simp

/-- What a list of pushes leaves. -/
theorem eval_pushes_inv : ∀ (ts : List Token) (s : Stack) (n : ℕ) (st : Bitcoin.State), (∀ t ∈ ts, IsPush t) →
    Eval R hash check ts ⟨s, [], n⟩ st → st = ⟨(ts.map pushValue).reverse ++ s, [], n⟩ := by
  intro ts
  induction ts with
  | nil => intro s n st _ h; exact eval_nil h
  | cons t ts ih =>
    intro s n st hp h
    obtain ⟨hv, ht⟩ := hp t List.mem_cons_self
    have hc : ¬ isCond t.op := by
      rintro (h | h | h | h) <;> rw [h] at ht <;> exact absurd ht (by decide)
    obtain ⟨s', k, o, _, h⟩ := eval_op hc h
    have hs : s' = pushValue t :: s ∧ k = 0 := by
      unfold pushValue
      by_cases h0 : t.op.toNat = 0
      · rw [if_pos h0]
        have hd : t.data = [] := by
          have := isPush_data ⟨hv, ht⟩
          unfold pushValue at this
          rw [if_pos h0] at this
          exact List.eq_nil_of_length_eq_zero (by simpa using this.1)
        obtain ⟨h1, h2⟩ := op_push o (by omega)
        rw [hd] at h1
        exact ⟨h1, h2⟩
      · rw [if_neg h0]
        by_cases h1 : t.op.toNat ≤ 0x4e
        · rw [if_pos h1]; exact op_push o h1
        · rw [if_neg h1]
          refine op_num o ?_ ht
          have := hv.1
          rcases supported_cases t.op this with h | h | h | h | h | h | h | h | h | h | h | h | h | h | h | h | h | h | h | h | h | h <;>
            first | omega | (exfalso; rw [h] at ht h1; revert ht h1; decide)
    obtain ⟨rfl, rfl⟩ := hs
    have hk : (if 0x60 < t.op.toNat then 1 else 0) = 0 := if_neg (by omega)
    rw [hk] at h
    have := ih _ _ _ (fun x hx => hp x (List.mem_cons_of_mem _ hx)) h
    rw [this]
    simp

/-- A token list is determined by its bytes. -/
theorem tokens_unique {a b : List Token} (ha : ∀ t ∈ a, t.Valid) (hb : ∀ t ∈ b, t.Valid) (hl : (encTokens a).length < 2^62)
    (h : encTokens a = encTokens b) : a = b := by
  obtain ⟨i, hi, hi'⟩ := (C18_parses_iff _ hl a).mpr ⟨ha, rfl⟩
  obtain ⟨j, hj, hj'⟩ := (C18_parses_iff _ hl b).mpr ⟨hb, h⟩
  rw [hi] at hj
  cases hj
  rw [← hi', ← hj']

theorem check_of_sigOk {env : Env} {sig key : Bytes} (h : SigOk env sig key) : checkOf env sig key = some true := by
  obtain ⟨hasher, verifier, der, t, hash, h1, h2, rfl, h3, h4⟩ := h
  unfold checkOf
  simp [h1, h2, h3, h4]

/-- Keys of at least 33 bytes in a script: their bytes are in it. -/
private theorem keys_le {ks : List Token} {keys : List Bytes} (hp : ∀ t ∈ ks, IsPush t) (hk : ks.map pushValue = keys)
    (h33 : ∀ k ∈ keys, 33 ≤ k.length) : 33 * keys.length ≤ (encTokens ks).length := by
  subst hk
  induction ks with
  | nil => exact le_refl 0
  | cons t ts ih =>
    have h1 := ih (fun x hx => hp x (List.mem_cons_of_mem _ hx)) (fun k hk => h33 k (List.mem_cons_of_mem _ hk))
    have h2 := (isPush_data (hp t List.mem_cons_self)).2
    have h3 := h33 (pushValue t) List.mem_cons_self
    show _ ≤ (t.enc ++ encTokens ts).length
    rw [List.length_append, List.map_cons, List.length_cons]
    omega

/-- The script that `genMultiSig` makes of keys of 33 to 65 bytes. -/
theorem policy {m : ℕ} {keys : List Bytes} (hmn : m ≤ keys.length) (hn : keys.length < 2^31)
    (hk : ∀ k ∈ keys, 33 ≤ k.length ∧ k.length ≤ 65) :
    ∃ r tm ks tn, genMultiSig m keys = .ok r ∧ r = encTokens (tm :: ks ++ [tn, ⟨0xae, []⟩]) ∧ (∀ t ∈ tm :: ks ++ [tn], IsPush t) ∧
      (∀ t ∈ tm :: ks ++ [tn], t.data.length ≤ 65) ∧ ScriptNum.make (pushValue tm) 4 = .ok (m : Int) ∧
      ScriptNum.make (pushValue tn) 4 = .ok (keys.length : Int) ∧ ks.map pushValue = keys ∧
      (∀ t ∈ tm :: ks ++ [tn, ⟨0xae, []⟩], t.Valid) ∧ 33 * keys.length + 2 ≤ r.length ∧ r.length ≤ 70 * (keys.length + 3) := by
  have hok : ∃ r, genMultiSig m keys = .ok r := by
    unfold genMultiSig
    rw [if_neg (by omega)]
    obtain ⟨b1, tm, e1, _⟩ := addInt64_token Buffer.new m (by omega)
    obtain ⟨b2, tn, e2, _⟩ := addInt64_token (keys.foldl addData b1) keys.length hn
    rw [e1, Res.ok_bind]
    dsimp only
    rw [e2, Res.ok_bind]
    exact ⟨_, rfl⟩
  obtain ⟨r, hr⟩ := hok
  obtain ⟨tm, ks, tn, hse, p1, v1, hks, hkeys, p2, v2, hv⟩ := genMultiSig_tokens (m := m) hmn hn
    (fun k h => ⟨by have := hk k h; omega, by rintro rfl; have := (hk _ h).1; simp at this, by rintro rfl; have := (hk _ h).1; simp at this⟩) hr
  have hp : ∀ t ∈ tm :: ks ++ [tn], IsPush t := by
    intro t ht
    rcases List.mem_append.mp ht with ht | ht
    · rcases List.mem_cons.mp ht with rfl | ht
      · exact p1
      · exact hks t ht
    · rw [List.mem_singleton.mp ht]; exact p2
  have hkl : ks.length = keys.length := by rw [← hkeys, List.length_map]
  have hd : ∀ t ∈ tm :: ks ++ [tn], t.data.length ≤ 65 := by
    intro t ht
    have hpt := (isPush_data (hp t ht)).1
    have : (pushValue t).length ≤ 65 := by
      rcases List.mem_append.mp ht with ht | ht
      · rcases List.mem_cons.mp ht with rfl | ht
        · have := ((make_iff _ _).mp v1).1; omega
        · exact (hk _ (by rw [← hkeys]; exact List.mem_map_of_mem ht)).2
      · rw [List.mem_singleton.mp ht]
        have := ((make_iff _ _).mp v2).1; omega
    omega
  have hlen : ∀ l : List Token, (∀ t ∈ l, t.data.length ≤ 65) → (encTokens l).length ≤ 70 * l.length := by
    intro l
    induction l with
    | nil => intro _; exact le_refl 0
    | cons t ts ih =>
      intro h
      have h3 := ih fun x hx => h x (List.mem_cons_of_mem _ hx)
      have h4 := enc_len t
      have h5 := h t List.mem_cons_self
      show (t.enc ++ encTokens ts).length ≤ _
      rw [List.length_append, List.length_cons]
      omega
  refine ⟨r, tm, ks, tn, hr, hse, hp, hd, v1, v2, hkeys, hv, ?_, ?_⟩
  · have h1 := keys_le hks hkeys (fun k h => (hk k h).1)
    have h2 := encTokens_length_ge [tn, ⟨0xae, []⟩]
    have e : encTokens (tm :: ks ++ [tn, ⟨0xae, []⟩]) = tm.enc ++ (encTokens ks ++ encTokens [tn, ⟨0xae, []⟩]) := by simp [encTokens]
    rw [hse, e, List.length_append, List.length_append]
    simp only [List.length_cons, List.length_nil] at h2
    omega
  · have e : tm :: ks ++ [tn, ⟨0xae, []⟩] = (tm :: ks ++ [tn]) ++ [⟨0xae, []⟩] := by simp
    have := hlen (tm :: ks ++ [tn, ⟨0xae, []⟩]) (by
      rw [e]
      intro t ht
      rcases List.mem_append.mp ht with ht | ht
      · exact hd t ht
      · rw [List.mem_singleton.mp ht]; simp)
    rw [← hse] at this
    simp only [List.length_append, List.length_cons, List.length_nil] at this
    omega

/-- The script of a policy, run on signatures above the dummy. -/
private theorem eval_policy {m : ℕ} {keys sigs : List Bytes} {tm tn : Token} {ks : List Token}
    (hm : Multi R check sigs.reverse keys.reverse true) (hsl : sigs.length = m) (hmn : m ≤ keys.length)
    (hp : ∀ t ∈ tm :: ks ++ [tn], IsPush t) (hd : ∀ t ∈ tm :: ks ++ [tn], t.data.length ≤ 65)
    (h1 : ScriptNum.make (pushValue tm) 4 = .ok (m : Int)) (h2 : ScriptNum.make (pushValue tn) 4 = .ok (keys.length : Int))
    (hk : ks.map pushValue = keys) (hlen : (encTokens (tm :: ks ++ [tn, ⟨0xae, []⟩])).length ≤ 70 * (keys.length + 3))
    (hn : R.limits = true → keys.length ≤ 20) :
    EvalScript R hash check (tm :: ks ++ [tn, ⟨0xae, []⟩]) (sigs.reverse ++ [[]]) [[1]] := by
  have hkl : ks.length = keys.length := by rw [← hk, List.length_map]
  have e : tm :: ks ++ [tn, ⟨0xae, []⟩] = (tm :: ks ++ [tn]) ++ [⟨0xae, []⟩] := by simp
  refine ⟨fun h => by have := hn h; omega, 0 + 1 + keys.reverse.length, ?_⟩
  rw [e]
  have hpush := eval_pushes (R := R) (hash := hash) (check := check) (tm :: ks ++ [tn]) (sigs.reverse ++ [[]]) 0 hp
    (fun h => ⟨fun t ht => (hd t ht).trans (by omega), by have := hn h; simp; omega, by omega⟩)
  have hstack : ((tm :: ks ++ [tn]).map pushValue).reverse ++ (sigs.reverse ++ [[]]) =
      pushValue tn :: (keys.reverse ++ pushValue tm :: (sigs.reverse ++ [] :: [])) := by
    simp [hk]
  rw [hstack] at hpush
  have hmulti : Bitcoin.Op R hash check ⟨0xae, []⟩ (pushValue tn :: (keys.reverse ++ pushValue tm :: (sigs.reverse ++ [] :: [])))
      (Bitcoin.ofBool true :: []) keys.reverse.length :=
    .multi _ _ _ _ _ _ _ _ (numIn_any (by simpa using h2)) (numIn_any (by simpa [hsl] using h1)) (by simp; omega)
      (fun h => by simpa using hn h) (fun _ => rfl) hm
  refine eval_append hpush (.cons _ _ _ _ _ _ _ _ _ (.run _ _ _ _ _ (show ¬ isCond 0xae by decide) (fun _ h => nomatch h) hmulti)
    (fun h => ⟨by simp, by simp, ?_⟩) (.nil _))
  have := hn h
  rw [List.length_reverse, if_pos (by decide)]
  omega

theorem eval_lock [Hashes] {r : Bytes} {s : Stack} (hs : R.limits = true → s.length + 2 ≤ 1000) :
    EvalScript R hash160 check (standardTokens .p2sh (hash160 r)) (r :: s) ([1] :: s) := by
  have hlen := hash160_length r
  refine ⟨fun _ => ?_, 2, ?_⟩
  · rw [standard_enc]
    simp [standardScript, hlen]
  · refine .cons _ _ _ _ _ _ _ _ _ (.run _ _ _ _ _ (show ¬ isCond 0xa9 by decide) (fun _ h => nomatch h) (.hash _ _ _))
      (fun h => ⟨by simp, by have := hs h; simp; omega, by decide⟩)
      (.cons _ _ _ _ _ _ _ _ _ (.run _ _ _ _ _ (show ¬ isCond 0x14 by decide) (fun _ h => nomatch h)
        (.push _ _ (show (0x14 : UInt8).toNat ≤ 0x4e by decide))) (fun h => ⟨by simp [hlen], by have := hs h; simp; omega, by split_ifs <;> omega⟩)
      (.cons _ _ _ _ _ _ _ _ _ (.run _ _ _ _ _ (show ¬ isCond 0x87 by decide) (fun _ h => nomatch h) (.equal _ _ _ _))
        (fun h => ⟨by simp, by have := hs h; simp; omega, by split_ifs <;> omega⟩) ?_))
    have e : Bitcoin.ofBool (decide (hash160 r = hash160 r)) = [1] := by rw [decide_eq_true rfl]; rfl
    show Eval R hash160 check [] ⟨Bitcoin.ofBool (decide (hash160 r = hash160 r)) :: s, [], 2⟩ _
    rw [e]
    exact .nil _

/-- Spending from the address of a policy, under any of the rules. -/
theorem p2sh_spend [Hashes] {m : ℕ} {keys : List Bytes} (hm : 1 ≤ m)
    (hmn : m ≤ keys.length) (hn : keys.length < 2^31) (hk : ∀ k ∈ keys, 33 ≤ k.length ∧ k.length ≤ 65) {r : Bytes}
    (hr : genMultiSig m keys = .ok r) (hr32 : r.length < 2^32) (h520 : R.limits = true → r.length ≤ 520) (signs : List PubKeySign)
    (hsl : signs.length = m) (hsig : ∀ s ∈ signs, 2 ≤ s.signature.length ∧ s.signature.length ≤ 75)
    (hmulti : Multi R check (signs.map (·.signature)).reverse keys.reverse true) :
    ∃ u rts, (∀ t ∈ u, t.Valid) ∧ (∀ t ∈ rts, t.Valid) ∧ r = encTokens rts ∧ (encTokens u).length ≤ 80 * m + r.length + 6 ∧
      rawUnlocking ⟨.p2sh, hash160 r⟩ signs (some r) = .ok (encTokens u) ∧ (∀ t ∈ u, t.op.toNat ≤ 0x60) ∧
      (∀ c, EvalScript R hash160 c u [] (r :: ((signs.map (·.signature)).reverse ++ [[]]))) ∧
      (∀ c, EvalScript R hash160 c (standardTokens .p2sh (hash160 r)) (r :: ((signs.map (·.signature)).reverse ++ [[]]))
        ([1] :: ((signs.map (·.signature)).reverse ++ [[]]))) ∧
      EvalScript R hash160 check rts ((signs.map (·.signature)).reverse ++ [[]]) [[1]] := by
  obtain ⟨r0, tm, ks, tn, hr0, hse, hp, hd, v1, v2, hkeys, hv, hrl, hru⟩ := policy hmn hn hk
  rw [hr] at hr0
  cases hr0
  have r81 : r ≠ [0x81] := fun e => by rw [e] at hrl; simp at hrl
  have r0 : r ≠ [0x00] := fun e => by rw [e] at hrl; simp at hrl
  set sigs := signs.map (·.signature) with hsigs
  have big : ∀ s ∈ sigs, s.length ≤ 75 ∧ s ≠ [0x00] ∧ s ≠ [0x81] := by
    intro s hm
    obtain ⟨g, hg, rfl⟩ := List.mem_map.mp hm
    obtain ⟨h1, h2⟩ := hsig g hg
    exact ⟨h2, fun e => by rw [e] at h1; simp at h1, fun e => by rw [e] at h1; simp at h1⟩
  have hsl' : sigs.length = m := by rw [hsigs, List.length_map, hsl]
  have hpush : ∀ x ∈ (⟨0x00, []⟩ :: sigs.map VM.pushToken) ++ [VM.pushToken r], IsPush x := by
    intro x hx
    rcases List.mem_append.mp hx with hx | hx
    · rcases List.mem_cons.mp hx with rfl | hx
      · exact ⟨⟨by decide, by decide⟩, by decide⟩
      · obtain ⟨s, hm, rfl⟩ := List.mem_map.mp hx
        exact pushToken_isPush (by have := (big s hm).1; omega) (big s hm).2.2
    · rw [List.mem_singleton.mp hx]
      exact pushToken_isPush hr32 r81
  have hvals : ((⟨0x00, []⟩ :: sigs.map VM.pushToken) ++ [VM.pushToken r] : List Token).map pushValue = [] :: sigs ++ [r] := by
    rw [List.map_append, List.map_cons, List.map_map]
    refine congrArg₂ _ (congrArg₂ _ rfl ?_) (by rw [List.map_singleton, pushToken_value r0 r81])
    conv => rhs; rw [← List.map_id sigs]
    exact List.map_congr_left fun s hm => pushToken_value (big s hm).2.1 (big s hm).2.2
  have hulen : (encTokens ((⟨0x00, []⟩ :: sigs.map VM.pushToken) ++ [VM.pushToken r])).length ≤ 80 * m + r.length + 6 := by
    have a := encTokens_push_le sigs (fun d hd => (big d hd).1)
    have b := pushToken_enc_le r
    have e : (encTokens ((⟨0x00, []⟩ :: sigs.map VM.pushToken) ++ [VM.pushToken r])).length =
        (Token.enc ⟨0x00, []⟩).length + (encTokens (sigs.map VM.pushToken)).length + (VM.pushToken r).enc.length := by
      simp [encTokens]; omega
    have c : (Token.enc ⟨0x00, []⟩).length = 1 := rfl
    rw [e, c]
    rw [hsl'] at a
    omega
  refine ⟨(⟨0x00, []⟩ :: sigs.map VM.pushToken) ++ [VM.pushToken r], tm :: ks ++ [tn, ⟨0xae, []⟩], fun t ht => (hpush t ht).1, hv, hse,
    hulen, ?_, fun t ht => (hpush t ht).2, ?_, ?_, ?_⟩
  · show Res.ok (unlockScriptHash signs (some r)) = _
    unfold unlockScriptHash
    rw [if_pos (by omega)]
    dsimp only
    rw [Option.getD_some, VM.addData_data _ _ hr32]
    have : signs.foldl (fun b s => addData b s.signature) (addOp Buffer.new 0x00) = sigs.foldl addData (addOp Buffer.new 0x00) := by
      rw [hsigs, List.foldl_map]
    rw [this, foldl_addData _ (fun k hk => by have := (big k hk).1; omega)]
    simp [encTokens, addOp, Buffer.new, Buffer.writeU8, Token.enc, lenWidth, leBytes]
  · intro c
    refine ⟨fun h => by have := h520 h; omega, 0, ?_⟩
    have := eval_pushes (R := R) (hash := hash160) (check := c) _ [] 0 hpush (fun h => by
      have h5 := h520 h
      refine ⟨fun t ht => ?_, ?_, by omega⟩
      · refine (isPush_data (hpush t ht)).1.trans ?_
        have : pushValue t ∈ [] :: sigs ++ [r] := by rw [← hvals]; exact List.mem_map_of_mem ht
        rcases List.mem_append.mp this with h | h
        · rcases List.mem_cons.mp h with h | h
          · rw [h]; simp
          · exact (big _ h).1.trans (by omega)
        · rw [List.mem_singleton.mp h]; exact h5
      · simp only [List.length_append, List.length_cons, List.length_map, List.length_nil]
        omega)
    rw [hvals] at this
    simpa using this
  · intro c
    refine eval_lock fun h => ?_
    have := h520 h
    simp only [List.length_append, List.length_reverse, List.length_cons, List.length_nil]
    omega
  · exact eval_policy hmulti hsl' hmn hp hd v1 v2 hkeys (by rw [← hse]; exact hru) (fun h => by have := h520 h; omega)

private theorem signs_ne {signs : List PubKeySign} (hsig : ∀ s ∈ signs, 2 ≤ s.signature.length ∧ s.signature.length ≤ 75) :
    ∀ s ∈ signs.map (·.signature), s ≠ [] := by
  intro s hm
  obtain ⟨g, hg, rfl⟩ := List.mem_map.mp hm
  obtain ⟨h1, _⟩ := hsig g hg
  exact fun e => by rw [e] at h1; simp at h1

/-- **C125, partial: P2SH.** Coins sent to the address of an m-of-n script made by `genMultiSig`, of at most 520 bytes, can be spent by
the rules of Bitcoin: with m signatures that match keys in order, the unlocking script that the library makes is accepted. Not
claimed, since false: scripts of more than 520 bytes (`C125_negation_p2sh`). -/
theorem C125_p2sh_partial [Hashes] (env : Env) {m : ℕ} {keys : List Bytes} (hm : 1 ≤ m)
    (hmn : m ≤ keys.length) (hn : keys.length < 2^31) (hk : ∀ k ∈ keys, 33 ≤ k.length ∧ k.length ≤ 65) {r : Bytes}
    (hr : genMultiSig m keys = .ok r) (h520 : r.length ≤ 520) (signs : List PubKeySign) (hsl : signs.length = m)
    (hsig : ∀ s ∈ signs, 2 ≤ s.signature.length ∧ s.signature.length ≤ 75)
    (ho : Oracles env (signs.map (·.signature)) keys) (hmatch : Matching (SigOk env) (signs.map (·.signature)) keys) :
    ∃ u l, (∀ t ∈ u ++ l, t.Valid) ∧ rawUnlocking ⟨.p2sh, hash160 r⟩ signs (some r) = .ok (encTokens u) ∧
      rawLocking ⟨.p2sh, hash160 r⟩ = encTokens l ∧ VerifyScript consensus hash160 (checkOf env) u l := by
  obtain ⟨u, rts, hv, hv', he, _, h1, h2, h3, h4, h5⟩ := p2sh_spend (R := consensus) hm hmn hn hk hr (by omega) (fun _ => h520)
    signs hsl hsig (multi_of_matching ho (signs_ne hsig) (by rw [List.length_map]; omega) hmatch)
  refine ⟨u, standardTokens .p2sh (hash160 r), ?_, h1, ?_, _, _, _, h3 _, h4 _, truthy_one, fun _ => ⟨h2, rts, _, _, _, hv', ?_, h5, truthy_one⟩⟩
  · intro t ht
    rcases List.mem_append.mp ht with ht | ht
    · exact hv t ht
    · exact standard_valid (hash160_length r) t ht
  · rw [standard_enc, rawLocking_eq (hash160_length r)]
  · rw [he]

/-- **C125, negation: P2SH.** The script of a policy with sixteen or more keys of 33 bytes has more than 520 bytes. The library makes it, its
address and a spend, and its engine accepts the spend. But under the rules of Bitcoin no unlocking script at all spends what was sent
there, unless it has another script with the same hash. -/
theorem C125_negation_p2sh [Hashes] (env : Env) (henv : env.hash160 = hash160) {m : ℕ} {keys : List Bytes} (hm : 1 ≤ m)
    (hmn : m ≤ keys.length) (h16 : 16 ≤ keys.length) (hn : keys.length < 2^20) (hk : ∀ k ∈ keys, 33 ≤ k.length ∧ k.length ≤ 65) :
    ∃ r, genMultiSig m keys = .ok r ∧
      (∀ u l, (∀ t ∈ u ++ l, t.Valid) → encTokens l = rawLocking ⟨.p2sh, hash160 r⟩ → ∀ check, VerifyScript consensus hash160 check u l →
        ∃ r', r' ≠ r ∧ hash160 r' = hash160 r) ∧
      ∀ signs : List PubKeySign, signs.length = m → (∀ s ∈ signs, 2 ≤ s.signature.length ∧ s.signature.length ≤ 75) →
        Oracles env (signs.map (·.signature)) keys → Matching (SigOk env) (signs.map (·.signature)) keys →
        ∃ unlock vm, rawUnlocking ⟨.p2sh, hash160 r⟩ signs (some r) = .ok unlock ∧
          verify env unlock (rawLocking ⟨.p2sh, hash160 r⟩) fresh = .ok vm := by
  obtain ⟨r, tm, ks, tn, hr, hse, hp, hd, v1, v2, hkeys, hv, hrl, hru⟩ := policy hmn (by omega) hk
  refine ⟨r, hr, ?_, ?_⟩
  · intro u l hv' hl check hV
    have hl' : l = standardTokens .p2sh (hash160 r) := by
      rw [rawLocking_eq (hash160_length r), ← standard_enc] at hl
      refine tokens_unique (fun t ht => hv' t (List.mem_append_right _ ht)) (standard_valid (hash160_length r)) ?_ hl
      rw [hl, standard_enc]
      simp [standardScript, hash160_length]
    subst hl'
    obtain ⟨s1, x, s2, ⟨_, n1, e1⟩, ⟨_, n2, e2⟩, hx, hP⟩ := hV
    obtain ⟨hu, rts, s3, y, s4, hrv, rfl, _, _⟩ := hP ⟨hash160 r, hash160_length r, rfl⟩
    refine ⟨encTokens rts, ?_, ?_⟩
    · intro e
      have hsmall : ∀ (ts : List Token) (a b : Bitcoin.State), (∀ t ∈ ts, t.op.toNat ≤ 0x60) → Eval consensus hash160 check ts a b → a.exec = [] →
          (∀ v ∈ a.stack, v.length ≤ 520) → ∀ v ∈ b.stack, v.length ≤ 520 := by
        intro ts a b ht he
        induction he with
        | nil => exact fun _ h => h
        | cons t ts s e n s' e' k st ha hlim _ ih =>
          intro h0 hs
          cases h0
          have ht0 := ht t List.mem_cons_self
          cases ha with
          | run _ _ _ _ _ _ _ ho =>
            refine ih (fun x hx => ht x (List.mem_cons_of_mem _ hx)) rfl ?_
            intro v hv
            cases ho with
            | push =>
              rcases List.mem_cons.mp hv with rfl | hv
              · exact (hlim rfl).1
              · exact hs v hv
            | negate =>
              rcases List.mem_cons.mp hv with rfl | hv
              · decide
              · exact hs v hv
            | num =>
              rcases List.mem_cons.mp hv with rfl | hv
              · simp
              · exact hs v hv
            | _ => exact absurd ht0 (by dsimp only; decide)
          | skip _ _ _ _ hb => obtain ⟨_, hb, _⟩ := hb; cases hb
          | ifSkipped _ _ _ _ hb => obtain ⟨_, hb, _⟩ := hb; cases hb
          | _ => exact absurd ht0 (by dsimp only; decide)
      have := hsmall u _ _ hu e1 rfl (by simp) (encTokens rts) List.mem_cons_self
      rw [e] at this
      omega
    · obtain ⟨q1, k1, o1, _, e2⟩ := eval_op (by decide) e2
      obtain ⟨q2, k2, o2, _, e2⟩ := eval_op (show ¬ isCond 0x14 by decide) e2
      obtain ⟨q3, k3, o3, _, e2⟩ := eval_op (by decide) e2
      obtain ⟨redeem, q, h1, rfl, _⟩ := op_hash o1 rfl
      obtain ⟨rfl, _⟩ := op_push o2 (show (0x14 : UInt8).toNat ≤ 0x4e by decide)
      obtain ⟨a, b, q', hab, rfl, _⟩ := op_equal o3 rfl
      obtain ⟨ha, hb2⟩ := List.cons.inj hab
      obtain ⟨hb3, _⟩ := List.cons.inj hb2
      obtain ⟨h1, _⟩ := List.cons.inj h1
      have e3 := congrArg Bitcoin.State.stack (eval_nil e2)
      obtain ⟨h4, _⟩ := List.cons.inj e3
      rw [h1]
      by_contra hne
      rw [h4, decide_eq_false (fun e : a = b => hne (by rw [hb3, ← e, ← ha]))] at hx
      rw [← asBool_iff] at hx
      cases hx
  · intro signs hsl hsig ho hmatch
    obtain ⟨u, rts, hu, hv', he, hul, h1, h2, h3, h4, h5⟩ := p2sh_spend (R := library) hm hmn (by omega) hk hr (by omega)
      (fun h => nomatch h) signs hsl hsig (multi_of_matching ho (signs_ne hsig) (by rw [List.length_map]; omega) hmatch)
    have h3 := h3 (checkOf env)
    have h4 := h4 (checkOf env)
    rw [← henv] at h3 h4 h5
    refine ⟨encTokens u, ?_⟩
    have hl : rawLocking ⟨.p2sh, hash160 r⟩ = encTokens (standardTokens .p2sh (env.hash160 r)) := by
      rw [henv, rawLocking_eq (hash160_length r), standard_enc]
    obtain ⟨vm, hvm⟩ := C124_complete_partial (R := library) env (by rw [henv]; intro x; rw [hash160_length]; norm_num) ⟨id, id, id, id, id, id⟩ hu
      (by rw [henv]; exact standard_valid (hash160_length r)) (by
        have e : encTokens (u ++ standardTokens .p2sh (env.hash160 r)) = encTokens u ++ standardScript .p2sh (env.hash160 r) := by
          rw [← standard_enc]; simp [encTokens]
        rw [e, List.length_append]
        have : (standardScript .p2sh (env.hash160 r)).length = 23 := by simp [standardScript, henv, hash160_length]
        omega) h3 h4 truthy_one (fun _ => ⟨rts, _, _, _, hv', by rw [he], h5, truthy_one⟩)
      (fun h => absurd ⟨env.hash160 r, by rw [henv]; exact hash160_length r, rfl⟩ h)
    exact ⟨vm, h1, by rw [hl]; exact hvm⟩

/-- The witness that the library makes for the witness address of a policy. -/
theorem p2wsh_spend [Hashes] {m : ℕ} {keys : List Bytes} (hm : 1 ≤ m)
    (hmn : m ≤ keys.length) (hn : keys.length ≤ 20) (hk : ∀ k ∈ keys, 33 ≤ k.length ∧ k.length ≤ 65) {r : Bytes}
    (hr : genMultiSig m keys = .ok r) (signs : List PubKeySign) (hsl : signs.length = m)
    (hsig : ∀ s ∈ signs, 2 ≤ s.signature.length ∧ s.signature.length ≤ 75)
    (hmulti : Multi consensus check (signs.map (·.signature)).reverse keys.reverse true) :
    witnessUnlocking ⟨.p2wsh, Hashes.sha256 r⟩ signs (some r) = .ok ([] :: signs.map (·.signature) ++ [r]) ∧
      VerifyP2WSH consensus hash160 Hashes.sha256 check (Hashes.sha256 r) ([] :: signs.map (·.signature) ++ [r]) := by
  obtain ⟨r0, tm, ks, tn, hr0, hse, hp, hd, v1, v2, hkeys, hv, hrl, hru⟩ := policy hmn (by omega) hk
  rw [hr] at hr0
  cases hr0
  refine ⟨?_, [] :: signs.map (·.signature), tm :: ks ++ [tn, ⟨0xae, []⟩], [1], hv, by rw [← hse],
    by rw [← hse], ?_, ?_, truthy_one⟩
  · show (if Hashes.sha256 r ≠ Hashes.sha256 r then _ else _) = _
    rw [if_neg (by simp), if_pos (by omega)]
    rfl
  · intro _ i hi
    rcases List.mem_cons.mp hi with rfl | hi
    · simp
    · obtain ⟨g, hg, rfl⟩ := List.mem_map.mp hi
      have := (hsig g hg).2
      omega
  · have := eval_policy (R := consensus) (hash := hash160) hmulti (by rw [List.length_map, hsl]) hmn hp hd v1 v2 hkeys
      (by rw [← hse]; exact hru) (fun _ => hn)
    simpa using this

/-- **C125, partial: P2WSH.** Coins sent to the witness address of an m-of-n script with at most 20 keys can be spent by the rules of
Bitcoin with the witness that the library makes. Not claimed, since false: more keys (`C125_negation_p2wsh`). -/
theorem C125_p2wsh_partial [Hashes] (env : Env) {m : ℕ} {keys : List Bytes} (hm : 1 ≤ m)
    (hmn : m ≤ keys.length) (hn : keys.length ≤ 20) (hk : ∀ k ∈ keys, 33 ≤ k.length ∧ k.length ≤ 65) {r : Bytes}
    (hr : genMultiSig m keys = .ok r) (signs : List PubKeySign) (hsl : signs.length = m)
    (hsig : ∀ s ∈ signs, 2 ≤ s.signature.length ∧ s.signature.length ≤ 75)
    (ho : Oracles env (signs.map (·.signature)) keys) (hmatch : Matching (SigOk env) (signs.map (·.signature)) keys) :
    ∃ witness, witnessUnlocking ⟨.p2wsh, Hashes.sha256 r⟩ signs (some r) = .ok witness ∧
      VerifyP2WSH consensus hash160 Hashes.sha256 (checkOf env) (Hashes.sha256 r) witness :=
  ⟨_, p2wsh_spend hm hmn hn hk hr signs hsl hsig (multi_of_matching ho (signs_ne hsig) (by rw [List.length_map]; omega) hmatch)⟩

/-- **C125, negation: P2WSH.** The library makes the script of a policy with more than 20 keys; but by the rules of Bitcoin no witness
spends what was sent to its address, unless it has another script with the same hash. -/
theorem C125_negation_p2wsh [Hashes] {m : ℕ} {keys : List Bytes} (hmn : m ≤ keys.length) (h21 : 21 ≤ keys.length) (hn : keys.length < 2^20)
    (hk : ∀ k ∈ keys, 33 ≤ k.length ∧ k.length ≤ 65) :
    ∃ r, genMultiSig m keys = .ok r ∧ ∀ check witness, VerifyP2WSH consensus hash160 Hashes.sha256 check (Hashes.sha256 r) witness →
      ∃ r', r' ≠ r ∧ Hashes.sha256 r' = Hashes.sha256 r := by
  obtain ⟨r, tm, ks, tn, hr, hse, hp, hd, v1, v2, hkeys, hv, hrl, hru⟩ := policy hmn (by omega) hk
  refine ⟨r, hr, ?_⟩
  rintro check w ⟨items, rts, x, hrv, _, hsha, _, ⟨_, n, he⟩, _⟩
  refine ⟨encTokens rts, ?_, hsha⟩
  intro e
  have e1 : rts = tm :: ks ++ [tn, ⟨0xae, []⟩] := tokens_unique hrv hv (by rw [e]; omega) (by rw [e, hse])
  have e2 : tm :: ks ++ [tn, ⟨0xae, []⟩] = (tm :: ks ++ [tn]) ++ [⟨0xae, []⟩] := by simp
  rw [e1, e2] at he
  obtain ⟨st, h1, h2⟩ := eval_split he
  rw [eval_pushes_inv _ _ _ _ hp h1] at h2
  obtain ⟨s', k, o, _, _⟩ := eval_op (show ¬ isCond 0xae by decide) h2
  obtain ⟨x', keys', y, sigs, d, r', b, hs, hx, _, _, hlim, _⟩ := op_multi o rfl
  have hx' : pushValue tn = x' := by
    have : ((tm :: ks ++ [tn]).map pushValue).reverse ++ items.reverse =
        pushValue tn :: ((ks.map pushValue).reverse ++ (pushValue tm :: items.reverse)) := by simp
    rw [this] at hs
    exact (List.cons.inj hs).1
  have h20 := hlim rfl
  have h3 := ((make_iff _ _).mp v2).2.2
  have h4 := hx.2.2
  rw [← hx', h3] at h4
  omega

/-- The unlocking script that the library makes for the address of a key. -/
theorem p2pkh_spend [Hashes] (g : PubKeySign) (hk : 33 ≤ g.pubKey.length ∧ g.pubKey.length ≤ 65)
    (hs : 2 ≤ g.signature.length ∧ g.signature.length ≤ 75) (hok : check g.signature g.pubKey = some true) :
    (∃ u, (∀ t ∈ u, t.Valid) ∧ (addData (addData Buffer.new g.signature) g.pubKey).data = encTokens u ∧
      ∀ c, EvalScript consensus hash160 c u [] [g.pubKey, g.signature]) ∧
    EvalScript consensus hash160 check (standardTokens .p2pkh (hash160 g.pubKey)) [g.pubKey, g.signature] [[1]] := by
  have hlen := hash160_length g.pubKey
  have hlock : EvalScript consensus hash160 check
      (standardTokens .p2pkh (hash160 g.pubKey)) [g.pubKey, g.signature] [[1]] := by
    refine ⟨fun _ => ?_, 4, ?_⟩
    · rw [standard_enc]
      simp [standardScript, hlen]
    · exact .cons _ _ _ _ _ _ _ _ _ (.run _ _ _ _ _ (show ¬ isCond 0x76 by decide) (fun _ h => nomatch h) (.dup _ _ _))
        (fun _ => ⟨by simp, by simp, by split_ifs <;> omega⟩)
        (.cons _ _ _ _ _ _ _ _ _ (.run _ _ _ _ _ (show ¬ isCond 0xa9 by decide) (fun _ h => nomatch h) (.hash _ _ _))
        (fun _ => ⟨by simp, by simp, by split_ifs <;> omega⟩)
        (.cons _ _ _ _ _ _ _ _ _ (.run _ _ _ _ _ (show ¬ isCond 0x14 by decide) (fun _ h => nomatch h)
          (.push _ _ (show (0x14 : UInt8).toNat ≤ 0x4e by decide))) (fun _ => ⟨by simp [hlen], by simp, by split_ifs <;> omega⟩)
        (.cons _ _ _ _ _ _ _ _ _ (.run _ _ _ _ _ (show ¬ isCond 0x88 by decide) (fun _ h => nomatch h) (.equalVerify _ _ _))
        (fun _ => ⟨by simp, by simp, by split_ifs <;> omega⟩)
        (.cons _ _ _ _ _ _ _ _ _ (.run _ _ _ _ _ (show ¬ isCond 0xac by decide) (fun _ h => nomatch h)
          (.checkSig _ _ _ _ true hok))
        (fun _ => ⟨by simp, by simp, by split_ifs <;> omega⟩) (.nil _)))))
  have ne : ∀ (x : UInt8) (d : Bytes), 2 ≤ d.length → d ≠ [x] := fun x d h e => by rw [e] at h; simp at h
  refine ⟨?_, hlock⟩
  have hp : ∀ t ∈ [VM.pushToken g.signature, VM.pushToken g.pubKey], IsPush t := by
    intro t ht
    simp only [List.mem_cons, List.not_mem_nil, or_false] at ht
    rcases ht with rfl | rfl
    · exact pushToken_isPush (by omega) (ne _ _ (by omega))
    · exact pushToken_isPush (by omega) (ne _ _ (by omega))
  have hv1 := pushToken_value (ne 0x00 g.signature (by omega)) (ne 0x81 _ (by omega))
  have hv2 := pushToken_value (ne 0x00 g.pubKey (by omega)) (ne 0x81 _ (by omega))
  refine ⟨[VM.pushToken g.signature, VM.pushToken g.pubKey], fun t ht => (hp t ht).1, ?_, fun c => ⟨fun _ => ?_, 0, ?_⟩⟩
  · rw [VM.addData_data _ _ (by omega), VM.addData_data _ _ (by omega)]
    simp [encTokens, Buffer.new]
  · have a := pushToken_enc_le g.signature
    have b := pushToken_enc_le g.pubKey
    have e : (encTokens [VM.pushToken g.signature, VM.pushToken g.pubKey]).length =
        (VM.pushToken g.signature).enc.length + (VM.pushToken g.pubKey).enc.length := by simp [encTokens]
    omega
  · have := eval_pushes (R := consensus) (hash := hash160) (check := c) _ [] 0 hp (fun _ => ⟨fun t ht => by
      refine (isPush_data (hp t ht)).1.trans ?_
      simp only [List.mem_cons, List.not_mem_nil, or_false] at ht
      rcases ht with rfl | rfl
      · rw [hv1]; omega
      · rw [hv2]; omega, by simp, by omega⟩)
    simpa [hv1, hv2] using this

/-- **C125: P2PKH and P2WPKH.** Coins sent to the address of a key can be spent by the rules of Bitcoin: with a signature that the key
verifies, the unlocking script and the witness that the library makes are accepted. -/
theorem C125_p2pkh [Hashes] (env : Env) (g : PubKeySign) (hk : 33 ≤ g.pubKey.length ∧ g.pubKey.length ≤ 65)
    (hs : 2 ≤ g.signature.length ∧ g.signature.length ≤ 75) (hok : SigOk env g.signature g.pubKey) :
    (∃ u l, (∀ t ∈ u ++ l, t.Valid) ∧ rawUnlocking ⟨.p2pkh, hash160 g.pubKey⟩ [g] none = .ok (encTokens u) ∧
      rawLocking ⟨.p2pkh, hash160 g.pubKey⟩ = encTokens l ∧ VerifyScript consensus hash160 (checkOf env) u l) ∧
    ∃ witness, witnessUnlocking ⟨.p2wpkh, hash160 g.pubKey⟩ [g] none = .ok witness ∧
      VerifyP2WPKH consensus hash160 (checkOf env) (hash160 g.pubKey) witness := by
  have hlen := hash160_length g.pubKey
  obtain ⟨⟨u, hv, he, hu⟩, hl⟩ := p2pkh_spend g hk hs (check_of_sigOk hok)
  constructor
  · refine ⟨u, standardTokens .p2pkh (hash160 g.pubKey), ?_, congrArg Res.ok he, ?_, _, _, _, hu _, hl, truthy_one, ?_⟩
    · intro t ht
      rcases List.mem_append.mp ht with ht | ht
      · exact hv t ht
      · exact standard_valid hlen t ht
    · rw [standard_enc, rawLocking_eq hlen]
    · rintro ⟨_, _, e⟩
      cases e
  · exact ⟨_, rfl, g.signature, g.pubKey, [1], rfl, fun _ => ⟨by omega, by omega⟩, hl, truthy_one⟩

/-! ### Instances -/

/-- The callbacks of `toyEnv` with the hash of the library. -/
def payEnv : Env := letI := toyHashes; { toyEnv with hash160 := hash160 }

private def k33 (i : UInt8) : Bytes := List.replicate 33 i
private def s34 (i : UInt8) : PubKeySign := ⟨k33 i, k33 i ++ [1]⟩

private theorem pay_ok (i : UInt8) : SigOk payEnv (k33 i ++ [1]) (k33 i) := ⟨_, _, k33 i, 1, [1], rfl, rfl, rfl, rfl, by simp⟩
private theorem pay_oracles (S K : List Bytes) : Oracles payEnv S K :=
  ⟨_, _, rfl, rfl, fun der t _ => ⟨⟨_, rfl⟩, fun h k _ => by split <;> simp⟩⟩

/-- Two of three: signatures for the first and third key. -/
example : letI := toyHashes; ∃ r u l, genMultiSig 2 [k33 1, k33 2, k33 3] = .ok r ∧ (∀ t ∈ u ++ l, t.Valid) ∧
    rawUnlocking ⟨.p2sh, hash160 r⟩ [s34 1, s34 3] (some r) = .ok (encTokens u) ∧
    rawLocking ⟨.p2sh, hash160 r⟩ = encTokens l ∧ VerifyScript consensus hash160 (checkOf payEnv) u l := by
  letI := toyHashes
  have hk : ∀ k ∈ [k33 1, k33 2, k33 3], 33 ≤ k.length ∧ k.length ≤ 65 := by simp [k33]
  obtain ⟨u, l, h⟩ := C125_p2sh_partial (m := 2) payEnv (keys := [k33 1, k33 2, k33 3]) (by decide) (by decide) (by decide) hk
    (r := encTokens (⟨0x52, []⟩ :: [⟨0x21, k33 1⟩, ⟨0x21, k33 2⟩, ⟨0x21, k33 3⟩] ++ [⟨0x53, []⟩, ⟨0xae, []⟩])) (by decide +kernel) (by decide +kernel)
    [s34 1, s34 3] rfl (by decide +kernel) (pay_oracles _ _)
    ⟨[k33 1, k33 3], by simp, .cons (pay_ok 1) (.cons (pay_ok 3) .nil)⟩
  exact ⟨_, u, l, by decide +kernel, h⟩

example : letI := toyHashes; ∃ r w, genMultiSig 2 [k33 1, k33 2, k33 3] = .ok r ∧
    witnessUnlocking ⟨.p2wsh, Hashes.sha256 r⟩ [s34 1, s34 3] (some r) = .ok w ∧
    VerifyP2WSH consensus hash160 Hashes.sha256 (checkOf payEnv) (Hashes.sha256 r) w := by
  letI := toyHashes
  have hk : ∀ k ∈ [k33 1, k33 2, k33 3], 33 ≤ k.length ∧ k.length ≤ 65 := by simp [k33]
  obtain ⟨w, h⟩ := C125_p2wsh_partial (m := 2) payEnv (keys := [k33 1, k33 2, k33 3]) (by decide) (by decide) (by decide) hk
    (r := encTokens (⟨0x52, []⟩ :: [⟨0x21, k33 1⟩, ⟨0x21, k33 2⟩, ⟨0x21, k33 3⟩] ++ [⟨0x53, []⟩, ⟨0xae, []⟩])) (by decide +kernel)
    [s34 1, s34 3] rfl (by decide +kernel) (pay_oracles _ _)
    ⟨[k33 1, k33 3], by simp, .cons (pay_ok 1) (.cons (pay_ok 3) .nil)⟩
  exact ⟨_, w, by decide +kernel, h⟩

/-- One of sixteen: not spendable, though the engine accepts the spend with the signature for the first key. -/
example : letI := toyHashes; ∃ r, genMultiSig 1 (k33 1 :: List.replicate 15 (k33 2)) = .ok r ∧
    (∀ u l, (∀ t ∈ u ++ l, t.Valid) → encTokens l = rawLocking ⟨.p2sh, hash160 r⟩ → ∀ check, VerifyScript consensus hash160 check u l →
      ∃ r', r' ≠ r ∧ hash160 r' = hash160 r) ∧
    ∃ unlock vm, rawUnlocking ⟨.p2sh, hash160 r⟩ [s34 1] (some r) = .ok unlock ∧
      verify payEnv unlock (rawLocking ⟨.p2sh, hash160 r⟩) fresh = .ok vm := by
  letI := toyHashes
  obtain ⟨r, h1, h2, h3⟩ := C125_negation_p2sh (m := 1) payEnv rfl (keys := k33 1 :: List.replicate 15 (k33 2)) (by decide) (by decide)
    (by decide) (by decide) (by simp [k33])
  exact ⟨r, h1, h2, h3 [s34 1] rfl (by decide +kernel) (pay_oracles _ _) ⟨[k33 1], by simp, .cons (pay_ok 1) .nil⟩⟩

/-- 15 of 21 in a witness. -/
example : letI := toyHashes; ∃ r, genMultiSig 15 (List.replicate 21 (k33 2)) = .ok r ∧
    ∀ check w, VerifyP2WSH consensus hash160 Hashes.sha256 check (Hashes.sha256 r) w → ∃ r', r' ≠ r ∧ Hashes.sha256 r' = Hashes.sha256 r :=
  letI := toyHashes
  C125_negation_p2wsh (m := 15) (by decide) (by decide) (by decide) (by simp [k33])

example : letI := toyHashes; ∃ w, witnessUnlocking ⟨.p2wpkh, hash160 (k33 1)⟩ [s34 1] none = .ok w ∧
    VerifyP2WPKH consensus hash160 (checkOf payEnv) (hash160 (k33 1)) w :=
  letI := toyHashes
  (C125_p2pkh payEnv (s34 1) (by decide +kernel) (by decide +kernel) (pay_ok 1)).2

end Toku.Props
