import Verif.Props.ReceivedWsh
import Verif.Props.Policies
import Verif.Model.Sha
/-
Property C128, continued: P2WSH coins of scripts that are not multisig scripts. Bitcoin runs the script of the witness; the library only
looks at the witness if that script is a multisig script.
-/
namespace Toku.Props
open Toku Toku.Spec Toku.VM Toku.Locking Toku.Script Toku.Tx
open Toku.Spec.Bitcoin (In BTx ValidInput ValidScripts)

section
variable [Hashes]

omit [Hashes] in
/-- A script that the library takes for a multisig script ends with OP_CHECKMULTISIG. -/
private theorem multisig_ends {r : Bytes} (hl : r.length < 2^62) {is : List Instruction} (his : allInstructions r = .ok is)
    (hm : isMultiSig is = true) : r.getLast? = some 0xae := by
  obtain ⟨ts, tail, hv, rfl, ht⟩ := tokens_exist r
  rcases allInstructions_tokens hv ht hl with ⟨rfl, h⟩ | ⟨_, e, h⟩
  · rw [his] at h
    cases h
    obtain ⟨a, ks, c, e, hs, _, _, _, he, _⟩ := (C30_recognised_iff _).mp hm
    have hlast := congrArg List.getLast? hs
    rw [List.getLast?_map, show a :: ks ++ [c, e] = (a :: ks ++ [c]) ++ [e] by simp, List.getLast?_concat] at hlast
    obtain ⟨t, ht, rfl⟩ := Option.map_eq_some_iff.mp hlast
    obtain ⟨pre, rfl⟩ : ∃ pre, ts = pre ++ [t] := by
      rw [List.getLast?_eq_some_iff] at ht
      exact ht
    have hval := hv t (by simp)
    have hop : t.op = 0xae := by rw [← instrOf_value hval.1]; exact he
    have hd : t.data = [] := by
      have := hval.2
      rw [hop] at this
      have := lt_of_lt_of_eq this (by decide : 256 ^ lenWidth 0xae = 1)
      exact List.length_eq_zero_iff.mp (by omega)
    have he : t.enc = [0xae] := by unfold Token.enc; rw [hop, hd]; rfl
    rw [List.append_nil, encTokens, List.flatMap_append, List.flatMap_singleton, he, List.getLast?_concat]
  · rw [his] at h
    cases h

omit [Hashes] in
/-- A P2SH script fails after an empty unlocking script. -/
private theorem empty_fails {σ : Type} (es : VMS.Env σ) {h : Bytes} (hh : h.length = 20) (s : σ) : ∃ e s',
    VMS.verify es [] (lockP2SH h) fresh s = (.err e, s') := by
  let env : VM.Env := ⟨es.hash160, some fun _ => .panic, some es.verifier⟩
  have ag : VMS.Agree (fun x => x = s) env es (fun _ => .panic) := ⟨rfl, rfl, rfl, fun _ hp => absurd rfl hp⟩
  have hx : ∃ e, VM.verify env [] (lockP2SH h) fresh = .err e := by
    have e1 : VM.execute env [] false fresh = .ok fresh := rfl
    have e2 : ∃ e, run env (lockP2SH h) fresh = .err e := by
      rw [p2sh_enc, run_tokens env (p2sh_valid hh) (by rw [← p2sh_enc]; simp [lockP2SH, hh])]
      exact ⟨_, rfl⟩
    obtain ⟨e, e2⟩ := e2
    refine ⟨e, ?_⟩
    unfold VM.verify
    rw [e1, Res.ok_bind]
    unfold VM.execute
    unfold run at e2
    rw [List.nil_append]
    change ((runLoop env _ _ fresh >>= _) >>= _) = _
    rw [e2]
    rfl
  obtain ⟨e, hx⟩ := hx
  obtain ⟨s', b1, _⟩ := VMS.verify_sim ag [] (lockP2SH h) fresh (by rw [hx]; simp) s rfl
  exact ⟨e, s', by rw [b1, hx]⟩

/-- **C128, negation: other scripts.** A P2WSH coin whose script is not one that the library takes for a multisig script (C30): whatever the
witness is, and whatever redeem script is supplied with the coin, the library refuses each transaction on the wire that spends it and is
valid for Bitcoin. -/
theorem C128_negation_unrecognised (fuel : ℕ) (b : BTx) (coins : List (TxOut × Option Bytes)) (h : Sizes b) (hb : ValidScripts b (coins.map (·.1)))
    (idx : ℕ) (i : In) (hi : b.ins[idx]? = some i) (v : UInt64) (p : Bytes) (redeem : Option Bytes) (hp : p.length = 32)
    (hc : coins[idx]? = some (⟨v, standardScript .p2wsh p⟩, redeem)) (script : Bytes) (hw : i.witness.getLast? = some script)
    (hr : ∀ is, allInstructions script = .ok is → isMultiSig is = false) : verdictWith fuel b coins ≠ .ok () := by
  intro hv
  obtain ⟨j, hj, hval⟩ := hb.2 idx ⟨v, standardScript .p2wsh p⟩ (by rw [List.getElem?_map, hc]; rfl)
  rw [hi] at hj
  cases hj
  have hu : i.scriptSig = [] := by
    rcases hval with ⟨hn, _⟩ | ⟨q, hq, e, hs, _⟩ | ⟨q, code, hq, e, hs, _⟩
    · exact absurd ⟨[0], p, by simp [standardScript, hp], by omega, by omega, Or.inl rfl⟩ hn
    · exact hs
    · exact hs
  unfold verdictWith at hv
  rw [parseBytes_ok h, Res.ok_bind] at hv
  obtain ⟨tx, hs, hv⟩ := Tx.bind_ok hv
  obtain ⟨i', s, un, hi1, hps, hun, hi'⟩ := (supplyCoins_get _ 0 _ tx hs).2 idx (coinWith (⟨v, standardScript .p2wsh p⟩, redeem)) (by
    rw [List.getElem?_map, hc]; rfl)
  rw [Nat.zero_add] at hi1 hi'
  have hi2 : (txOf b).inputs[idx]? = some (inOf i) := by
    simp only [txOf, List.getElem?_map, hi, Option.map_some]
  rw [hi2] at hi1
  cases hi1
  have hp' := C29_parse_build .p2wsh p hp
  rw [C29_build .p2wsh p hp] at hp'
  rw [show (coinWith (⟨v, standardScript .p2wsh p⟩, redeem)).rawLockingScript = standardScript .p2wsh p from rfl, hp'] at hps
  cases hps
  have hun' : un = none := by
    unfold witnessToUnlocking at hun
    dsimp only at hun
    rw [show (inOf i).witness = i.witness from rfl, hw] at hun
    dsimp only at hun
    split at hun
    · split at hun
      · cases hun
      · exact (Res.ok.inj hun).symm
      · rename_i is his
        split at hun
        · rename_i hm
          exact absurd hm (by rw [hr is his]; simp)
        · exact (Res.ok.inj hun).symm
    · exact (Res.ok.inj hun).symm
  subst hun'
  obtain ⟨tx1, _, hok⟩ := each_same hv idx _ hi'
  have hfin : finalLocking ⟨.p2wsh, p⟩ redeem = lockP2SH (hash160 (redeem.getD [])) := C29_build .p2sh _ (hash160_length _)
  obtain ⟨e, tx2, hrun⟩ := empty_fails (engineEnv (Ecdsa.scheme fuel) idx .witnessV0) (hash160_length (redeem.getD [])) tx1
  have hraw := C29_parse_build .p2wsh p hp
  obtain ⟨vm, hvm⟩ := (input_of_run (E := Ecdsa.scheme fuel) (idx := idx) (s := ⟨.p2wsh, p⟩) (r := .err e) (tx' := tx2) hraw (by
    dsimp only [Option.getD_none]
    rw [show (inOf i).rawUnlockingScript = [] from hu]
    rw [show (coinWith (⟨v, standardScript .p2wsh p⟩, redeem)).redeemScript = redeem from rfl, hfin]
    exact hrun)).1.mp hok
  cases hvm

/-- **C128, negation: other scripts.** So for every P2WSH coin whose script does not end with OP_CHECKMULTISIG. -/
theorem C128_negation_scripts (fuel : ℕ) (b : BTx) (coins : List (TxOut × Option Bytes)) (h : Sizes b) (hb : ValidScripts b (coins.map (·.1)))
    (idx : ℕ) (i : In) (hi : b.ins[idx]? = some i) (v : UInt64) (p : Bytes) (redeem : Option Bytes) (hp : p.length = 32)
    (hc : coins[idx]? = some (⟨v, standardScript .p2wsh p⟩, redeem)) (script : Bytes) (hw : i.witness.getLast? = some script)
    (hr : script.getLast? ≠ some 0xae) : verdictWith fuel b coins ≠ .ok () := by
  refine C128_negation_unrecognised fuel b coins h hb idx i hi v p redeem hp hc script hw fun is his => ?_
  obtain ⟨j, hj, hval⟩ := hb.2 idx ⟨v, standardScript .p2wsh p⟩ (by rw [List.getElem?_map, hc]; rfl)
  rw [hi] at hj
  cases hj
  rcases hval with ⟨hn, _⟩ | ⟨q, hq, e, _⟩ | ⟨q, code, hq, e, hs, _, items, rts, x, _, hw', _, _, hev, _⟩
  · exact absurd ⟨[0], p, by simp [standardScript, hp], by omega, by omega, Or.inl rfl⟩ hn
  · have := congrArg List.length e
    simp [standardScript, hp, hq] at this
  · rw [hw', List.getLast?_concat] at hw
    cases hw
    have := hev.1 rfl
    rw [Bool.eq_false_iff]
    exact fun hm => hr (multisig_ends (by omega) his hm)

/-- A coin for whoever knows a text: the script HASH160 `hash` EQUAL. -/
def hashLock (text : Bytes) : Bytes := [0xa9, 0x14] ++ hash160 text ++ [0x87]

/-- A transaction that spends the P2WSH coin of a hash lock: the witness has the text and the script. -/
def opensLock (text : Bytes) : BTx :=
  ⟨2, [⟨List.replicate 32 9, 0, [], 0xffffffff, [text, hashLock text]⟩], [⟨4000, standardScript .p2pkh (List.replicate 20 3)⟩], 0⟩

/-- Such coins are there: those of hash locks, for every text of at most 520 bytes. The hypotheses of `C128_negation_scripts` are met, and its
conclusion. -/
theorem C128_negation_hash_lock (fuel : ℕ) (text : Bytes) (ht : text.length ≤ 520) (v : UInt64) (redeem : Option Bytes) :
    Sizes (opensLock text) ∧ ValidScripts (opensLock text) [⟨v, standardScript .p2wsh (Hashes.sha256 (hashLock text))⟩] ∧
    verdictWith fuel (opensLock text) [(⟨v, standardScript .p2wsh (Hashes.sha256 (hashLock text))⟩, redeem)] ≠ .ok () := by
  have hsz : Sizes (opensLock text) := by
    refine ⟨by simp [opensLock], ?_⟩
    have hc : ∀ n, (compactSize n).length ≤ 9 := by
      intro n
      unfold compactSize
      split_ifs <;> simp [le]
    have hl : (hashLock text).length = 23 := by simp [hashLock, hash160_length]
    unfold BTx.bytes
    rw [if_pos (by rfl)]
    simp only [opensLock, counted, wireIn, wireOut, varStr, List.length_append, List.length_cons, List.length_nil, List.flatMap_cons,
      List.flatMap_nil, List.length_replicate, standardScript, hl, Wire.le_length]
    have h1 := hc (0 + 1)
    have h4 := hc (0 + 1 + 1 + 1 + 20 + (0 + 1 + 1))
    have h5 := hc (0 + 1 + 1)
    have h6 := hc 23
    have h2 := hc 0
    have h3 := hc text.length
    omega
  have hval : ValidScripts (opensLock text) [⟨v, standardScript .p2wsh (Hashes.sha256 (hashLock text))⟩] := by
    refine ⟨rfl, ?_⟩
    intro idx coin hc
    cases idx with
    | succ n => cases hc
    | zero =>
      cases hc
      have henc : encTokens [⟨0xa9, []⟩, ⟨0x14, hash160 text⟩, ⟨0x87, []⟩] = hashLock text := (p2sh_enc (hash160 text)).symm
      refine ⟨_, rfl, Or.inr (Or.inr ⟨_, hashLock text, Hashes.sha256_length _, rfl, rfl, rfl, [text],
        [⟨0xa9, []⟩, ⟨0x14, hash160 text⟩, ⟨0x87, []⟩], [1], p2sh_valid (hash160_length _), ?_, ?_, ?_, ⟨?_, 2, ?_⟩, ?_⟩)⟩
      · rw [henc]; rfl
      · rw [henc]
      · intro _ i hi
        rw [List.mem_singleton] at hi
        subst hi
        exact ht
      · intro _
        rw [henc]
        simp [hashLock, hash160_length]
      · refine .cons _ _ _ _ _ _ _ 0 _ (.run _ _ _ _ _ (by decide) (by simp) (.hash _ text _)) (fun _ => ⟨by simp, by simp, by simp⟩) ?_
        refine .cons _ _ _ _ _ _ _ 0 _ (.run _ _ _ _ _ (by decide : ¬ Bitcoin.isCond 0x14) (by simp) (.push _ _ (by decide : (0x14 : UInt8).toNat ≤ 0x4e)))
          (fun _ => ⟨by simp [hash160_length], by simp, by simp⟩) ?_
        refine .cons _ _ _ _ _ [[1]] _ 0 _ (.run _ _ _ _ _ (by decide) (by simp) ?_) (fun _ => ⟨by simp, by simp, by simp⟩) (.nil _)
        have := Bitcoin.Op.equal (R := Bitcoin.consensus) (hash160 := hash160) (check := Bitcoin.checkSig (Bitcoin.witnessHash (opensLock text) 0
          ⟨List.replicate 32 9, 0, [], 0xffffffff, [text, hashLock text]⟩ v (hashLock text))) [] (hash160 text) (hash160 text) []
        rw [decide_eq_true rfl] at this
        exact this
      · exact Or.inr ⟨1, rfl, by decide, by decide⟩
  exact ⟨hsz, hval, C128_negation_scripts fuel _ [(⟨v, standardScript .p2wsh (Hashes.sha256 (hashLock text))⟩, redeem)] hsz hval 0 _ rfl v _ redeem
    (Hashes.sha256_length _) rfl (hashLock text) rfl (by rw [hashLock, List.getLast?_concat]; decide)⟩

end

section
attribute [local instance] Sha.realHashes

/-- For one text, with the real hashes: the library refuses, with the error of a signature that is not good. -/
example : verdictWith 4 (opensLock [1, 2, 3]) [(⟨5000, standardScript .p2wsh (Hashes.sha256 (hashLock [1, 2, 3]))⟩, some (hashLock [1, 2, 3]))] =
    .err errVerifyFailed := by decide +kernel

end

end Toku.Props
