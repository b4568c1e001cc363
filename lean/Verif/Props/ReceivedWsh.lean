import Verif.Props.Spend
import Verif.Proof.VMSMulti
/-
Property C111, continued: what it takes that a received input with a multisig witness is accepted.
-/
namespace Toku.Props
open Toku Toku.Spec Toku.VM Toku.Locking Toku.Script Toku.Tx

section
variable {κ : Type} [Hashes]

/-- The signature, with its hash type byte, is good for the key and the witness signature hash of the input, computed in some state of
the digest caches of the transaction. -/
def WitnessSig (E : Ecdsa κ) (tx : Transaction) (idx : ℕ) (sig key : Bytes) : Prop :=
  ∃ der t hash tx1 tx2, sig = der ++ [t] ∧ SameTx tx1 tx ∧ witnessSignatureHash tx1 idx t.toUInt32 = .ok (hash, tx2) ∧
    E.verify hash der key = .ok ()

private theorem wsh_keeps (E : Ecdsa κ) (idx : ℕ) (tx0 : Transaction) (t : UInt8) :
    VMS.Keeps (fun tx => SameTx tx tx0) ((engineEnv E idx .witnessV0).hasher t) := by
  intro tx h
  change SameTx (sigHashFn idx .witnessV0 t tx).2 tx0
  unfold sigHashFn
  dsimp only
  unfold witnessSignatureHash
  cases tx.inputs[idx]? with
  | none => exact h
  | some i => exact h

private theorem okIn_witnessSig (E : Ecdsa κ) (idx : ℕ) (tx0 : Transaction) {sig key : Bytes}
    (h : VMS.OkIn (fun tx => SameTx tx tx0) (engineEnv E idx .witnessV0) sig key) : WitnessSig E tx0 idx sig key := by
  obtain ⟨der, t, hash, s1, s2, e, hs, hh, hv⟩ := h
  have hh' : sigHashFn idx .witnessV0 t s1 = (.ok hash, s2) := hh
  unfold sigHashFn at hh'
  dsimp only at hh'
  cases hw : witnessSignatureHash s1 idx t.toUInt32 with
  | err e => rw [hw] at hh'; cases hh'
  | panic => rw [hw] at hh'; cases hh'
  | ok p =>
    rw [hw] at hh'
    obtain ⟨hash', tx2⟩ := p
    cases hh'
    exact ⟨der, t, hash, s1, s2, e, hs, hw, hv⟩

omit [Hashes] in
/-- An accepted run for a P2SH script and pushes, with at least three of them: the last one hashes to the script hash, and it ran on the others. -/
private theorem verify_pushes {σ : Type} (es : VMS.Env σ) {h : Bytes} (hh : h.length = 20) {init : List Token} {last : Token}
    (h2 : 2 ≤ init.length) (hp : ∀ t ∈ init ++ [last], IsPush t) (hl : (encTokens (init ++ [last]) ++ lockP2SH h).length < 2^62)
    {s s' : σ} {vm : State} (hx : VMS.verify es (encTokens (init ++ [last])) (lockP2SH h) fresh s = (.ok vm, s')) :
    es.hash160 (pushValue last) = h ∧ VMS.execute es (pushValue last) true ⟨(init.map pushValue).reverse, []⟩ s = (.ok vm, s') := by
  let env : VM.Env := ⟨es.hash160, some fun _ => .panic, some es.verifier⟩
  have ag : VMS.Agree (fun x => x = s) env es (fun _ => .panic) := ⟨rfl, rfl, rfl, fun _ hp => absurd rfl hp⟩
  have hv : ∀ t ∈ init ++ [last], t.Valid := fun t ht => (hp t ht).1
  have hl1 : (encTokens (init ++ [last])).length < 2^62 := by rw [List.length_append] at hl; omega
  have run1 := execAll_pushes env hp []
  have e1 : VM.execute env (encTokens (init ++ [last])) false fresh = .ok ⟨pushValue last :: (init.map pushValue).reverse, []⟩ := by
    rw [execute_false, run_tokens env hv hl1, show (fresh : State) = ⟨[], []⟩ from rfl, run1]
    simp
  have run2 : run env (encTokens (init ++ [last]) ++ lockP2SH h) fresh =
      .ok ⟨boolBytes (h == env.hash160 (pushValue last)) :: (init.map pushValue).reverse, []⟩ := by
    rw [run_append_ok hv hl]
    refine ⟨_, by rw [execute_false, run_tokens env hv hl1] at e1; exact e1, ?_⟩
    rw [p2sh_enc, run_tokens env (p2sh_valid hh) (by rw [← p2sh_enc]; simp [lockP2SH, hh])]
    rfl
  unfold VMS.verify at hx
  obtain ⟨vm1, s1, a1, k1⟩ := VMS.bind_ok hx
  obtain ⟨s1', b1, b2⟩ := VMS.execute_sim ag (encTokens (init ++ [last])) false fresh (by rw [e1]; simp) s rfl
  rw [b1, e1, b2] at a1
  cases a1
  dsimp only [reset] at k1
  obtain ⟨vm2, s2, a2, k2⟩ := VMS.bind_ok k1
  by_cases hq : es.hash160 (pushValue last) = h
  · refine ⟨hq, ?_⟩
    have e2 : VM.execute env (encTokens (init ++ [last]) ++ lockP2SH h) true ⟨[], []⟩ = .ok ⟨(init.map pushValue).reverse, []⟩ := by
      rw [execute_true]
      refine ⟨_, run2, Or.inr ⟨_, _, rfl, ?_, rfl⟩⟩
      rw [show env.hash160 (pushValue last) = h from hq, beq_self_eq_true]; rfl
    obtain ⟨s2', c1, c2⟩ := VMS.execute_sim ag (encTokens (init ++ [last]) ++ lockP2SH h) true ⟨[], []⟩ (by rw [e2]; simp) s rfl
    rw [c1, e2, c2] at a2
    cases a2
    rw [if_pos (by simp; omega)] at k2
    obtain ⟨p, d1, d2⟩ := VMS.bind_lift_ok k2
    cases d1
    exact d2
  · exfalso
    have e2 : VM.execute env (encTokens (init ++ [last]) ++ lockP2SH h) true ⟨[], []⟩ = .err errExec := by
      unfold VM.execute
      unfold run at run2
      rw [show (fresh : State) = ⟨[], []⟩ from rfl] at run2
      rw [run2, Res.ok_bind]
      have : (h == env.hash160 (pushValue last)) = false := by
        rw [beq_eq_false_iff_ne]; exact fun e => hq e.symm
      rw [this]
      rfl
    obtain ⟨s2', c1, c2⟩ := VMS.execute_sim ag (encTokens (init ++ [last]) ++ lockP2SH h) true ⟨[], []⟩ (by rw [e2]; simp) s rfl
    rw [c1, e2] at a2
    cases a2

omit [Hashes] in
private theorem pushed_value' {w : Bytes} (h : w ≠ [0x81]) : pushValue (pushToken w) = pushed w := by
  unfold pushed
  split
  · rename_i e; subst e; rfl
  · rename_i e; exact pushToken_value e h

omit [Hashes] in
/-- pushes of which one is the byte 81 do not run -/
private theorem verify_81 {σ : Type} (es : VMS.Env σ) (l : Bytes) {a : List Bytes} {b : Bytes} (ha : ∀ w ∈ a, w.length < 2^32 ∧ w ≠ [0x81])
    (hl : (encTokens (a.map pushToken) ++ ((pushToken [0x81]).enc ++ b)).length < 2^62) {s s' : σ} {vm : State} :
    VMS.verify es (encTokens (a.map pushToken) ++ ((pushToken [0x81]).enc ++ b)) l fresh s ≠ (.ok vm, s') := by
  intro hx
  let env : VM.Env := ⟨es.hash160, some fun _ => .panic, some es.verifier⟩
  have ag : VMS.Agree (fun x => x = s) env es (fun _ => .panic) := ⟨rfl, rfl, rfl, fun _ hp => absurd rfl hp⟩
  have hp : ∀ t ∈ a.map pushToken, IsPush t := by
    intro t ht
    obtain ⟨w, hw, rfl⟩ := List.mem_map.mp ht
    exact pushToken_isPush (ha w hw).1 (ha w hw).2
  obtain ⟨e, he⟩ := run_stuck env (ts := a.map pushToken) (fun t ht => (hp t ht).1)
    (tail := (pushToken [0x81]).enc ++ b) ⟨0x4f, b, rfl, Or.inl (by decide)⟩ hl fresh
  rw [show (fresh : State) = ⟨[], []⟩ from rfl, execAll_pushes env hp [], Res.ok_bind] at he
  have e1 : VM.execute env (encTokens (a.map pushToken) ++ ((pushToken [0x81]).enc ++ b)) false fresh = .err e := by
    rw [execute_false]; exact he
  unfold VMS.verify at hx
  obtain ⟨vm1, s1, a1, k1⟩ := VMS.bind_ok hx
  obtain ⟨s1', b1, b2⟩ := VMS.execute_sim ag _ false fresh (by rw [e1]; simp) s rfl
  rw [b1, e1] at a1
  cases a1

private theorem enc_pushes_le (ds : List Bytes) : (encTokens (ds.map pushToken)).length ≤ (ds.map fun d => d.length + 5).sum := by
  induction ds with
  | nil => simp [encTokens]
  | cons d ds ih =>
    have h2 := pushToken_enc_le d
    simp only [encTokens, List.map_cons, List.flatMap_cons, List.length_append, List.sum_cons] at ih ⊢
    omega

/-- **C111 (partial).** Full statement: a received transaction that Verify accepts was signed, for each of its inputs, with a key
of the coin. Proved for the inputs that spend P2WSH coins with a witness of at least three items, the last of them an m-of-n multisig
script of at most 16 keys, in transactions with any other inputs: this script hashes (HASH160) like the redeem script supplied with the
coin, and the last `m` of the other items are signatures good for `m` different keys of the script, in the order of the keys, and the
signature hash of the transaction (in some state of its digest caches, C42). Missing: shorter witnesses, for which the script is not run
(`C44_negation`), other scripts, for which the witness is not looked at (`C111_forged`), and any comparison of the script with the program
of the coin (C44). -/
theorem C111_received_p2wsh_partial (E : Ecdsa κ) (coins : List TxIn) (txd tx : Transaction) (hs : supplyCoins coins 0 txd = .ok tx)
    (hv : (verify E tx).1 = .ok ()) (idx : ℕ) (c : TxIn) (hc : coins[idx]? = some c) (h : Bytes) (hh : h.length = 32)
    (hk : c.rawLockingScript = standardScript .p2wsh h) (i : TxIn) (hi : txd.inputs[idx]? = some i) (m : ℕ) (pubs : List Bytes)
    (hmn : m ≤ pubs.length) (h1 : 1 ≤ pubs.length) (hn : pubs.length ≤ 16) (hpk : ∀ k ∈ pubs, k.length = 33 ∨ k.length = 65) (r : Bytes)
    (hg : genMultiSig m pubs = .ok r) (front : List Bytes) (hw : i.witness = front ++ [r]) (h2 : 2 ≤ front.length)
    (hlen : ∀ w ∈ i.witness, w.length < 2^32) (hsum : (i.witness.map fun w => w.length + 5).sum < 2^61) :
    hash160 r = hash160 (c.redeemScript.getD []) ∧
    ∃ pre d S, front.map pushed = pre ++ d :: S ∧ S.length = m ∧ Matching (WitnessSig E tx idx) S pubs := by
  obtain ⟨i', s, un, hi1, hp, hun, hi'⟩ := (supplyCoins_get coins 0 txd tx hs).2 idx c hc
  rw [Nat.zero_add] at hi1 hi'
  rw [hi] at hi1
  cases hi1
  have hp' := C29_parse_build .p2wsh h hh
  rw [C29_build .p2wsh h hh, ← hk, hp] at hp'
  cases hp'
  -- the script
  have hr : r.length < 2^32 := hlen r (by rw [hw]; simp)
  obtain ⟨is, his, hms⟩ := C30_recognised m pubs hmn h1 hn hpk r hg (by omega)
  have hk' : ∀ k ∈ pubs, k.length < 2^32 ∧ k ≠ [0x00] ∧ k ≠ [0x81] := by
    intro k hk2
    have := hpk k hk2
    refine ⟨by omega, ?_, ?_⟩ <;> (rintro rfl; simp at this)
  obtain ⟨tm, ks, tn, hse, p1, v1, hks, hkeys, p2, v2, hval⟩ := genMultiSig_tokens hmn (by omega) hk' hg
  have hr3 : 2 ≤ r.length := by
    have := encTokens_length_ge (tm :: ks ++ [tn, ⟨0xae, []⟩])
    rw [← hse] at this
    simp at this
    omega
  have r0 : r ≠ [0x00] := by rintro rfl; simp at hr3
  have r81 : r ≠ [0x81] := by rintro rfl; simp at hr3
  -- the unlocking script
  have hun' : un = some (addData (front.foldl addData Buffer.new) r).data := by
    unfold witnessToUnlocking at hun
    dsimp only at hun
    rw [hw, List.getLast?_concat] at hun
    dsimp only at hun
    rw [if_pos (by rw [List.length_append]; simp; omega), his] at hun
    dsimp only at hun
    rw [if_pos hms, List.dropLast_concat] at hun
    exact (Res.ok.inj hun).symm
  have hfl : ∀ w ∈ front, w.length < 2^32 := fun w hwf => hlen w (by rw [hw]; simp [hwf])
  have hdata : (addData (front.foldl addData Buffer.new) r).data = encTokens (front.map pushToken ++ [pushToken r]) := by
    rw [VM.addData_data _ _ hr, foldl_addData _ hfl]
    simp [encTokens, Buffer.new]
  have hle : (encTokens (front.map pushToken ++ [pushToken r])).length < 2^61 := by
    have := enc_pushes_le (front ++ [r])
    rw [List.map_append, List.map_singleton] at this
    rw [hw] at hsum
    omega
  have hfin : finalLocking ⟨.p2wsh, h⟩ c.redeemScript = lockP2SH (hash160 (c.redeemScript.getD [])) :=
    C29_build .p2sh _ (hash160_length _)
  have hlock : (lockP2SH (hash160 (c.redeemScript.getD []))).length = 23 := by simp [lockP2SH, hash160_length]
  -- the run
  obtain ⟨tx1, hsame, hok⟩ := each_same hv idx _ hi'
  have hraw := C29_parse_build .p2wsh h hh
  cases hx : VMS.verify (engineEnv E idx .witnessV0) (encTokens (front.map pushToken ++ [pushToken r]))
    (lockP2SH (hash160 (c.redeemScript.getD []))) fresh tx1 with
  | mk res tx2 =>
  have hrun := (input_of_run (E := E) (idx := idx) (s := ⟨.p2wsh, h⟩) (tx := tx1) (tx' := tx2) (r := res) (i := { i with
      rawUnlockingScript := un.getD i.rawUnlockingScript, value := c.value, redeemScript := c.redeemScript,
      witnessScriptCode := witnessScriptCode ⟨.p2wsh, h⟩ c.redeemScript, rawLockingScript := rawLocking ⟨.p2wsh, h⟩,
      finalLockingScript := finalLocking ⟨.p2wsh, h⟩ c.redeemScript }) hraw (by
    dsimp only
    rw [hun', Option.getD_some, hdata, hfin]
    exact hx)).1.mp hok
  obtain ⟨vm, rfl⟩ := hrun
  by_cases h81 : [0x81] ∈ front
  · exfalso
    obtain ⟨a, b, rfl, hna⟩ := List.eq_append_cons_of_mem h81
    have e : encTokens ((a ++ [0x81] :: b).map pushToken ++ [pushToken r]) =
        encTokens (a.map pushToken) ++ ((pushToken [0x81]).enc ++ encTokens (b.map pushToken ++ [pushToken r])) := by
      simp [encTokens]
    rw [e] at hx hle
    exact verify_81 _ _ (fun w hwa => ⟨hfl w (by simp [hwa]), fun ew => hna (ew ▸ hwa)⟩) (by omega) hx
  · have hpush : ∀ t ∈ front.map pushToken ++ [pushToken r], IsPush t := by
      intro t ht
      rcases List.mem_append.mp ht with q | q
      · obtain ⟨w, hwf, rfl⟩ := List.mem_map.mp q
        exact pushToken_isPush (hfl w hwf) (fun ew => h81 (ew ▸ hwf))
      · rw [List.mem_singleton.mp q]
        exact pushToken_isPush hr r81
    obtain ⟨hq, hx2⟩ := verify_pushes _ (hash160_length _) (by rw [List.length_map]; exact h2) hpush
      (by rw [List.length_append, hlock]; omega) hx
    rw [pushToken_value r0 r81] at hq hx2
    refine ⟨hq, ?_⟩
    rw [hse] at hx2
    obtain ⟨S, d, rest', e1, e2, e3⟩ := VMS.execute_multisig (wsh_keeps E idx tx) (by omega) hmn p1 v1 p2 v2 hks hkeys
      (by rw [← hse]; omega) hsame hx2
    have hmap : (front.map pushToken).map pushValue = front.map pushed := by
      rw [List.map_map]
      apply List.map_congr_left
      intro w hwf
      exact pushed_value' (fun ew => h81 (ew ▸ hwf))
    rw [hmap] at e1
    have e4 := congrArg List.reverse e1
    rw [List.reverse_reverse] at e4
    refine ⟨rest'.reverse, d, S, by rw [e4]; simp, e2, ?_⟩
    obtain ⟨ch, hsub, hf⟩ := e3
    exact ⟨ch, hsub, hf.imp fun _ _ => okIn_witnessSig E idx tx⟩

end

/-- A coin of the 2-of-3 script `toyMulti`. -/
def wshCoin : Tx.TxIn :=
  { Tx.TxIn.empty with
    value := 1000, rawLockingScript := standardScript .p2wsh (@Hashes.sha256 modHashes toyMulti), redeemScript := some toyMulti }

/-- The verdict on a received transaction that spends it with a witness. -/
def wshVerdict (w : List Bytes) : Res Unit :=
  (@supplyCoins modHashes [wshCoin] 0 (spendTx w [])).bind fun tx => (@Tx.verify _ modHashes toyEcdsa tx).1

/-- The signature of a key for spending it. -/
def wshSig (k : UInt8) : Res Bytes :=
  (@supplyCoins modHashes [wshCoin] 0 (spendTx [] [])).bind fun tx =>
    (@Tx.witnessSignatureHash modHashes tx 0 1).bind fun p => .ok (p.1 ++ [k, 1])

/-- The coin is spent with the signatures of the keys 7 and 9, in this order, with anything before them; not with one of them twice,
not in the other order, and not without the element that is dropped. -/
example : (wshSig 7).bind (fun a => (wshSig 9).bind fun b => .ok (wshVerdict [[], a, b, toyMulti], wshVerdict [[3], [], a, b, toyMulti],
    wshVerdict [[], a, a, toyMulti], wshVerdict [[], b, a, toyMulti], wshVerdict [a, b, toyMulti])) =
    .ok (.ok (), .ok (), .err Tx.errVerifyFailed, .err Tx.errVerifyFailed, .err Tx.errVerifyFailed) := by
  decide +kernel

end Toku.Props
