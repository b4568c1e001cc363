import Verif.Proof.VMSLock
import Verif.Props.Received
import Verif.Props.TxEcdsa
import Verif.Props.SigHash
import Verif.Proof.Order
import Verif.Model.Sha
/-
Property C121: whether someone who only relays an accepted transaction can change it and keep it accepted.
-/
namespace Toku.Props
open Toku Toku.Spec Toku.VM Toku.Locking Toku.Script Toku.Tx

/-- `tx` without the scripts and the witnesses of its inputs. -/
def unsigned (tx : Transaction) : Transaction :=
  { tx with inputs := tx.inputs.map fun i => { i with witness := [], rawUnlockingScript := [] } }

section
variable {κ : Type} [Hashes]

/-! ### the signature hashes do not read scripts and witnesses -/

omit [Hashes] in
private theorem foldRes_map {α β γ : Type} (f : γ → β → Res γ) (g : α → β) (l : List α) : ∀ b : γ,
    foldRes f b (l.map g) = foldRes (fun b a => f b (g a)) b l := by
  induction l with
  | nil => intro b; rfl
  | cons a l ih =>
    intro b
    simp only [List.map_cons, foldRes]
    congr 1
    funext c
    exact ih c

private theorem raw_unsigned (tx : Transaction) (idx : ℕ) (t : UInt32) :
    rawSignatureHash (unsigned tx) idx t = rawSignatureHash tx idx t := by
  unfold rawSignatureHash rawPreimage writeSigAll unsigned
  dsimp only
  rw [List.length_map, List.zipIdx_map, foldRes_map]
  rfl

private theorem updateCaches_unsigned (tx : Transaction) (t : UInt32) :
    updateCaches (unsigned tx) t = unsigned (updateCaches tx t) := by
  unfold updateCaches cachePrevouts cacheSequence cacheOutputs unsigned
  dsimp only
  rw [List.foldl_map, List.foldl_map]

private theorem sigHash_unsigned (tx : Transaction) (idx : ℕ) (v : Version) (t : UInt8) :
    sigHashFn idx v t (unsigned tx) = ((sigHashFn idx v t tx).1, unsigned (sigHashFn idx v t tx).2) := by
  cases v with
  | base =>
    change (rawSignatureHash (unsigned tx) idx _, unsigned tx) = _
    rw [raw_unsigned]
    rfl
  | witnessV0 =>
    unfold sigHashFn
    dsimp only
    unfold witnessSignatureHash
    have e : (unsigned tx).inputs[idx]? = tx.inputs[idx]?.map fun i => { i with witness := [], rawUnlockingScript := [] } := by
      unfold unsigned
      rw [List.getElem?_map]
    rw [e, updateCaches_unsigned]
    cases tx.inputs[idx]? with
    | none => rfl
    | some i => rfl

/-- The relation between the states of the two runs: they differ in scripts and witnesses only, and are `T` but for those
and the digest caches. -/
private def Rel (T : Transaction) (a b : Transaction) : Prop := unsigned a = unsigned b ∧ SameTx (unsigned a) T

private theorem sigHash_same (tx : Transaction) (idx : ℕ) (v : Version) (t : UInt8) : SameTx (sigHashFn idx v t tx).2 tx := by
  unfold sigHashFn
  cases v with
  | base => exact ⟨rfl, rfl, rfl, rfl⟩
  | witnessV0 =>
    dsimp only
    unfold witnessSignatureHash
    cases tx.inputs[idx]? with
    | none => exact ⟨rfl, rfl, rfl, rfl⟩
    | some i => exact ⟨rfl, rfl, rfl, rfl⟩

private theorem sigHash_lock (T : Transaction) (idx : ℕ) (v : Version) (t : UInt8) :
    VMS.Lock (Rel T) (fun _ => False) (sigHashFn idx v t) (sigHashFn idx v t) := by
  refine ⟨?_, fun _ h => h.elim⟩
  rintro a b ⟨h1, h2⟩
  left
  have ea := sigHash_unsigned a idx v t
  have eb := sigHash_unsigned b idx v t
  rw [h1, eb, Prod.mk.injEq] at ea
  refine ⟨ea.1.symm, ea.2.symm, ?_⟩
  have hs := sigHash_same (unsigned b) idx v t
  rw [eb] at hs
  dsimp only at hs
  rw [← ea.2]
  rw [h1] at h2
  exact ⟨hs.1.trans h2.1, hs.2.1.trans h2.2.1, hs.2.2.1.trans h2.2.2.1, hs.2.2.2.trans h2.2.2.2⟩

/-- the verdict on an input from that of the engine -/
private def judged (m : VMS.M Transaction State) : VMS.M Transaction Unit := fun tx =>
  match m tx with
  | (.ok _, tx) => (.ok (), tx)
  | (.err _, tx) => (.err errVerifyFailed, tx)
  | (.panic, tx) => (.panic, tx)

omit [Hashes] in
private theorem judged_lock {R : Transaction → Transaction → Prop} {m1 m2 : VMS.M Transaction State}
    (h : VMS.Lock R (fun _ => False) m1 m2) : VMS.Lock R (fun _ => False) (judged m1) (judged m2) := by
  refine ⟨fun s1 s2 hr => ?_, fun _ h => h.elim⟩
  rcases h.step s1 s2 hr with ⟨e, hr'⟩ | hq
  · left
    unfold judged
    cases h1 : m1 s1 with
    | mk r t =>
      cases h2 : m2 s2 with
      | mk r' t' =>
        rw [h1, h2] at e hr'
        dsimp only at e hr'
        subst e
        cases r <;> exact ⟨rfl, hr'⟩
  · exact hq.elim

private theorem verifyInput_lock (E : Ecdsa κ) (T : Transaction) (idx : ℕ) (i : TxIn) :
    VMS.Lock (Rel T) (fun _ => False) (verifyInput E idx i) (verifyInput E idx i) := by
  unfold verifyInput
  refine VMS.Lock.bind (VMS.Lock.lift _) fun s => ?_
  exact judged_lock (VMS.verify_lock (es := engineEnv E idx (scriptVersion s)) (sigHash_lock T idx (scriptVersion s)) _ _ _)

/-- What an unlocking script needs depends on the transaction without scripts and witnesses only. -/
private theorem spends_unsigned (E : Ecdsa κ) {a b : Transaction} (h : SameTx (unsigned a) (unsigned b)) (idx : ℕ) (k : Locking.Kind)
    (x u : Bytes) : Spends E a idx k x u ↔ Spends E b idx k x u := by
  have e : ∀ t, rawSignatureHash a idx t = rawSignatureHash b idx t := by
    intro t
    rw [← raw_unsigned a, ← raw_unsigned b]
    obtain ⟨q1, q2, q3, q4⟩ := h
    unfold rawSignatureHash rawPreimage writeSigAll
    rw [q1, q2, q3, q4]
  have e1 : legacyEnv E a idx = legacyEnv E b idx := by
    unfold legacyEnv
    simp only [e]
  have e2 : ∀ s k, LegacySig E a idx s k ↔ LegacySig E b idx s k := by
    intro s k
    unfold LegacySig
    simp only [e]
  unfold Spends
  rw [e1]
  simp only [e2]

/-- an input that spends the legacy coin of the hash `x` -/
private theorem legacy_lock (E : Ecdsa κ) (T : Transaction) (idx : ℕ) (i j : TxIn) (k : Locking.Kind) (x : Bytes)
    (hk : k = .p2pkh ∨ k = .p2sh) (hh : x.length = 20) (hraw : i.rawLockingScript = standardScript k x)
    (hfin : i.finalLockingScript = standardScript k x) (jraw : j.rawLockingScript = standardScript k x)
    (jfin : j.finalLockingScript = standardScript k x) (li : i.rawUnlockingScript.length < 2^61) (lj : j.rawUnlockingScript.length < 2^61)
    (hT : unsigned T = T) (hi : Spends E T idx k x i.rawUnlockingScript) (hj : Spends E T idx k x j.rawUnlockingScript) :
    VMS.Lock (Rel T) (fun _ => False) (verifyInput E idx i) (verifyInput E idx j) := by
  have hsz : x.length = hashSize k := by rcases hk with rfl | rfl <;> exact hh
  have hp : parse (standardScript k x) = .ok ⟨k, x⟩ := by rw [← C29_build k x hsz]; exact C29_parse_build k x hsz
  refine ⟨?_, fun _ h => h.elim⟩
  rintro a b ⟨h1, h2⟩
  left
  have sa : SameTx (unsigned a) (unsigned T) := by rw [hT]; exact h2
  have sb : SameTx (unsigned b) (unsigned T) := by rw [hT, ← h1]; exact h2
  have ia := (C111_legacy_iff E a idx i k x hk hh hraw hfin li).mpr ((spends_unsigned E sa idx k x _).mpr hi)
  have jb := (C111_legacy_iff E b idx j k x hk hh jraw jfin lj).mpr ((spends_unsigned E sb idx k x _).mpr hj)
  obtain ⟨r, er⟩ := (C111_legacy_input E a idx i ⟨k, x⟩ (by rw [hraw, hp]) hk).1
  obtain ⟨r', er'⟩ := (C111_legacy_input E b idx j ⟨k, x⟩ (by rw [jraw, hp]) hk).1
  rw [ia, jb]
  rw [er, er']
  exact ⟨rfl, h1, h2⟩

private theorem verifyInputs_lock (E : Ecdsa κ) (T : Transaction) {l m : List (TxIn × ℕ)}
    (h : List.Forall₂ (fun p q => VMS.Lock (Rel T) (fun _ => False) (verifyInput E p.2 p.1) (verifyInput E q.2 q.1)) l m) :
    VMS.Lock (Rel T) (fun _ => False) (verifyInputs E l) (verifyInputs E m) := by
  induction h with
  | nil => exact VMS.Lock.lift _
  | cons h _ ih => exact VMS.Lock.bind h fun _ => ih

omit [Hashes] in
private theorem unsigned_unsigned (tx : Transaction) : unsigned (unsigned tx) = unsigned tx := by
  unfold unsigned
  dsimp only
  rw [List.map_map]
  rfl

/-- **C121.** What Verify reads of the scripts and witnesses: of two transactions that are the same without them, an input of
the one can have the script of the other, or, where it spends a P2PKH or P2SH coin, another that spends the coin; then both have
the same verdict, whatever the witnesses are. -/
theorem C121_same_verdict (E : Ecdsa κ) (a b : Transaction) (hab : unsigned a = unsigned b)
    (hu : ∀ idx i j, a.inputs[idx]? = some i → b.inputs[idx]? = some j → j.rawUnlockingScript = i.rawUnlockingScript ∨
      ∃ k x, (k = .p2pkh ∨ k = .p2sh) ∧ x.length = 20 ∧ i.rawLockingScript = standardScript k x ∧
        i.finalLockingScript = standardScript k x ∧ i.rawUnlockingScript.length < 2^61 ∧ j.rawUnlockingScript.length < 2^61 ∧
        Spends E a idx k x i.rawUnlockingScript ∧ Spends E a idx k x j.rawUnlockingScript) :
    (verify E a).1 = (verify E b).1 := by
  have hin : a.inputs.map (fun i => ({ i with witness := [], rawUnlockingScript := [] } : TxIn)) =
      b.inputs.map (fun i => ({ i with witness := [], rawUnlockingScript := [] } : TxIn)) := congrArg Transaction.inputs hab
  have hlen : a.inputs.length = b.inputs.length := by
    have := congrArg List.length hin
    rwa [List.length_map, List.length_map] at this
  have h2 : List.Forall₂ (fun p q => VMS.Lock (Rel (unsigned a)) (fun _ => False) (verifyInput E p.2 p.1) (verifyInput E q.2 q.1))
      a.inputs.zipIdx b.inputs.zipIdx := by
    rw [List.forall₂_iff_get]
    refine ⟨by rw [List.length_zipIdx, List.length_zipIdx, hlen], fun n h1 h2 => ?_⟩
    rw [List.length_zipIdx] at h1 h2
    simp only [List.get_eq_getElem, List.getElem_zipIdx, Nat.zero_add]
    have e := congrArg (fun l : List TxIn => l[n]?) hin
    simp only [List.getElem?_map, List.getElem?_eq_getElem h1, List.getElem?_eq_getElem h2, Option.map_some, Option.some.injEq] at e
    rcases hu n _ _ (List.getElem?_eq_getElem h1) (List.getElem?_eq_getElem h2) with he | ⟨k, x, hk, hx, q1, q2, q3, q4, q5, q6⟩
    · have ev : verifyInput E n a.inputs[n] = verifyInput E n b.inputs[n] := by
        have e1 := congrArg TxIn.rawLockingScript e
        have e2 := congrArg TxIn.finalLockingScript e
        dsimp only at e1 e2
        unfold verifyInput
        rw [e1, e2, he]
      rw [ev]
      exact verifyInput_lock E _ n _
    · have e1 := congrArg TxIn.rawLockingScript e
      have e2 := congrArg TxIn.finalLockingScript e
      dsimp only at e1 e2
      have s : SameTx (unsigned (unsigned a)) (unsigned a) := by rw [unsigned_unsigned]; exact ⟨rfl, rfl, rfl, rfl⟩
      exact legacy_lock E (unsigned a) n _ _ k x hk hx q1 q2 (e1 ▸ q1) (e2 ▸ q2) q3 q4 (unsigned_unsigned a)
        ((spends_unsigned E s n k x _).mpr q5) ((spends_unsigned E s n k x _).mpr q6)
  rcases (verifyInputs_lock E (unsigned a) h2).step a b ⟨hab, rfl, rfl, rfl, rfl⟩ with ⟨e, _⟩ | hq
  · exact e
  · exact hq.elim

/-! ### witness inputs -/

/-- `tx` with `f` of the input at `k` in its place. -/
def modIn (tx : Transaction) (k : ℕ) (f : TxIn → TxIn) : Transaction := { tx with inputs := tx.inputs.modify k f }

omit [Hashes] in
private theorem modify_get (l : List TxIn) (k n : ℕ) (f : TxIn → TxIn) : (l.modify k f)[n]? = if k = n then l[n]?.map f else l[n]? := by
  rw [List.getElem?_modify]
  cases l[n]? <;> split <;> rfl

private theorem setTxIn_other (tx : Transaction) (k m : ℕ) (f : TxIn → TxIn) (hm : m ≠ k) (v : UInt64) (s : Bytes) (r : Option Bytes) :
    setTxIn (modIn tx k f) m v s r = (setTxIn tx m v s r).bind fun t => .ok (modIn t k f) := by
  unfold setTxIn
  have e : (modIn tx k f).inputs[m]? = tx.inputs[m]? := by
    unfold modIn
    rw [modify_get, if_neg (Ne.symm hm)]
  rw [e]
  cases tx.inputs[m]? with
  | none => rfl
  | some i =>
    rw [show Res.ofIdx (some i) = .ok i from rfl, Res.ok_bind, Res.ok_bind]
    cases parse s with
    | err e => rfl
    | panic => rfl
    | ok ls =>
      rw [Res.ok_bind, Res.ok_bind]
      cases witnessToUnlocking ls i.witness with
      | err e => rfl
      | panic => rfl
      | ok un =>
        rw [Res.ok_bind, Res.ok_bind]
        change Res.ok _ = Res.ok _
        congr 1
        unfold putInput modIn
        dsimp only
        congr 1
        apply List.ext_getElem?
        intro n
        simp only [List.getElem?_set, modify_get, List.length_modify]
        by_cases h1 : m = n
        · subst h1
          rw [if_pos rfl, if_pos rfl, if_neg (Ne.symm hm)]
        · rw [if_neg h1, if_neg h1]

private theorem supply_other (cs : List TxIn) (k : ℕ) (f : TxIn → TxIn) : ∀ (n : ℕ) (tx : Transaction), k < n →
    supplyCoins cs n (modIn tx k f) = (supplyCoins cs n tx).bind fun t => .ok (modIn t k f) := by
  induction cs with
  | nil => intro n tx _; rfl
  | cons c cs ih =>
    intro n tx hn
    simp only [supplyCoins]
    rw [setTxIn_other tx k n f (by omega)]
    cases setTxIn tx n c.value c.rawLockingScript c.redeemScript with
    | err e => rfl
    | panic => rfl
    | ok t => exact ih (n + 1) t (by omega)

private theorem supply_modify (cs : List TxIn) (f g : TxIn → TxIn) (c : TxIn) (i : TxIn) : ∀ (n j : ℕ) (tx tx' : Transaction),
    supplyCoins cs n tx = .ok tx' → cs[j]? = some c → tx.inputs[n + j]? = some i →
    (∀ t t1, t.inputs[n + j]? = some i → setTxIn t (n + j) c.value c.rawLockingScript c.redeemScript = .ok t1 →
      setTxIn (modIn t (n + j) f) (n + j) c.value c.rawLockingScript c.redeemScript = .ok (modIn t1 (n + j) g)) →
    supplyCoins cs n (modIn tx (n + j) f) = .ok (modIn tx' (n + j) g) := by
  induction cs with
  | nil => intro n j tx tx' _ hc; simp at hc
  | cons c0 cs ih =>
    intro n j tx tx' h hc hi H
    simp only [supplyCoins] at h ⊢
    obtain ⟨t1, h1, h⟩ := Res.bind_eq_ok.mp h
    cases j with
    | zero =>
      simp only [List.getElem?_cons_zero, Option.some.injEq] at hc
      subst hc
      rw [Nat.add_zero] at hi H ⊢
      rw [H tx t1 hi h1, Res.ok_bind, supply_other cs n g (n + 1) t1 (by omega), h]
      rfl
    | succ j =>
      rw [List.getElem?_cons_succ] at hc
      rw [setTxIn_other tx _ n f (by omega), h1]
      change supplyCoins cs (n + 1) (modIn t1 (n + (j + 1)) f) = _
      rw [show n + (j + 1) = n + 1 + j by omega] at hi H ⊢
      refine ih (n + 1) j t1 tx' h hc ?_ H
      rw [← hi]
      unfold setTxIn at h1
      obtain ⟨i0, _, h1⟩ := Res.bind_eq_ok.mp h1
      obtain ⟨s0, _, h1⟩ := Res.bind_eq_ok.mp h1
      obtain ⟨u0, _, h1⟩ := Res.bind_eq_ok.mp h1
      cases h1
      unfold putInput
      dsimp only
      rw [List.getElem?_set_ne (by omega)]

omit [Hashes] in
private theorem modIn_id (tx : Transaction) (k : ℕ) : modIn tx k id = tx := by
  unfold modIn
  rw [List.modify_id]

/-- what SetTxIn makes of an input, for a P2WPKH coin -/
private def filled (i : TxIn) (w0 w1 : Bytes) (v : UInt64) (h : Bytes) (r : Option Bytes) : TxIn :=
  { i with
    rawUnlockingScript := (addData (addData Buffer.new w0) w1).data, value := v, redeemScript := r,
    witnessScriptCode := witnessScriptCode ⟨.p2wpkh, h⟩ r, rawLockingScript := rawLocking ⟨.p2wpkh, h⟩,
    finalLockingScript := finalLocking ⟨.p2wpkh, h⟩ r }

private theorem setTxIn_filled (t : Transaction) (i : TxIn) (k : ℕ) (v : UInt64) (h : Bytes) (hh : h.length = 20) (r : Option Bytes)
    (hi : t.inputs[k]? = some i) (w0 w1 : Bytes) (rest : List Bytes) (hw : i.witness = w0 :: w1 :: rest) :
    setTxIn t k v (standardScript .p2wpkh h) r = .ok (putInput t k (filled i w0 w1 v h r)) := by
  have hp := C29_parse_build .p2wpkh h hh
  rw [C29_build .p2wpkh h hh] at hp
  unfold setTxIn
  rw [hi, hp, show Res.ofIdx (some i) = .ok i from rfl, Res.ok_bind, Res.ok_bind]
  unfold witnessToUnlocking filled
  dsimp only
  rw [hw]
  rfl

private theorem setTxIn_short (t : Transaction) (i : TxIn) (k : ℕ) (v : UInt64) (h : Bytes) (hh : h.length = 20) (r : Option Bytes)
    (hi : t.inputs[k]? = some i) (t1 : Transaction) (hs : setTxIn t k v (standardScript .p2wpkh h) r = .ok t1) :
    ∃ w0 w1 rest, i.witness = w0 :: w1 :: rest := by
  have hp := C29_parse_build .p2wpkh h hh
  rw [C29_build .p2wpkh h hh] at hp
  unfold setTxIn at hs
  rw [hi, hp, show Res.ofIdx (some i) = .ok i from rfl, Res.ok_bind, Res.ok_bind] at hs
  unfold witnessToUnlocking at hs
  dsimp only at hs
  match hw : i.witness with
  | [] => rw [hw] at hs; cases hs
  | [_] => rw [hw] at hs; cases hs
  | w0 :: w1 :: rest => exact ⟨w0, w1, rest, rfl⟩

/-- the script of the input is overwritten, and of the witness two items count -/
private theorem setTxIn_p2wpkh (i : TxIn) (k : ℕ) (v : UInt64) (h : Bytes) (hh : h.length = 20) (r : Option Bytes) (u : Bytes) (extra : List Bytes)
    (t t1 : Transaction) (hi : t.inputs[k]? = some i) (hs : setTxIn t k v (standardScript .p2wpkh h) r = .ok t1) :
    setTxIn (modIn t k fun i => { i with rawUnlockingScript := u, witness := i.witness ++ extra }) k v (standardScript .p2wpkh h) r =
      .ok (modIn t1 k fun i => { i with witness := i.witness ++ extra }) := by
  obtain ⟨w0, w1, rest, hw⟩ := setTxIn_short t i k v h hh r hi t1 hs
  rw [setTxIn_filled t i k v h hh r hi w0 w1 rest hw] at hs
  cases hs
  have hlt : k < t.inputs.length := by
    by_contra hcc
    rw [List.getElem?_eq_none (by omega)] at hi
    cases hi
  have e : (modIn t k fun i => { i with rawUnlockingScript := u, witness := i.witness ++ extra }).inputs[k]? =
      some { i with rawUnlockingScript := u, witness := i.witness ++ extra } := by
    unfold modIn
    rw [modify_get, if_pos rfl, hi]
    rfl
  rw [setTxIn_filled _ _ k v h hh r e w0 w1 (rest ++ extra) (by dsimp only; rw [hw]; rfl)]
  congr 1
  unfold putInput modIn
  dsimp only
  congr 1
  apply List.ext_getElem?
  intro n
  simp only [List.getElem?_set, modify_get, List.length_modify]
  by_cases h1 : k = n
  · subst h1
    rw [if_pos rfl, if_pos hlt, if_pos rfl, if_pos rfl, if_pos hlt]
    rfl
  · rw [if_neg h1, if_neg h1, if_neg h1, if_neg h1]

/-- **C121.** A received input that spends a P2WPKH coin: any script in the script field, and any items after the second of
the witness, make no difference to the verdict of Verify on the transaction, whatever its other inputs are. -/
theorem C121_p2wpkh (E : Ecdsa κ) (coins : List TxIn) (txd tx : Transaction) (hs : supplyCoins coins 0 txd = .ok tx) (idx : ℕ) (c i : TxIn)
    (hc : coins[idx]? = some c) (hi : txd.inputs[idx]? = some i) (h : Bytes) (hh : h.length = 20)
    (hk : c.rawLockingScript = standardScript .p2wpkh h) (u : Bytes) (extra : List Bytes) :
    ∃ tx', supplyCoins coins 0 (modIn txd idx fun i => { i with rawUnlockingScript := u, witness := i.witness ++ extra }) = .ok tx' ∧
      (verify E tx').1 = (verify E tx).1 := by
  have := supply_modify coins (fun i => { i with rawUnlockingScript := u, witness := i.witness ++ extra })
    (fun i => { i with witness := i.witness ++ extra }) c i 0 idx txd tx hs hc (by rw [Nat.zero_add]; exact hi)
    (by rw [hk]; intro t t1; exact setTxIn_p2wpkh i _ c.value h hh c.redeemScript u extra t t1)
  rw [Nat.zero_add] at this
  refine ⟨_, this, ?_⟩
  apply C121_same_verdict
  · unfold unsigned modIn
    dsimp only
    congr 1
    apply List.ext_getElem?
    intro n
    simp only [List.getElem?_map, modify_get]
    cases tx.inputs[n]? <;> split <;> rfl
  · intro n a b ha hb
    left
    unfold modIn at ha
    rw [modify_get, hb] at ha
    split at ha <;> cases ha <;> rfl

/-- **C121.** With only the script changed it is even the same object after SetTxIn. -/
theorem C121_p2wpkh_script (coins : List TxIn) (txd tx : Transaction) (hs : supplyCoins coins 0 txd = .ok tx) (idx : ℕ) (c i : TxIn)
    (hc : coins[idx]? = some c) (hi : txd.inputs[idx]? = some i) (h : Bytes) (hh : h.length = 20)
    (hk : c.rawLockingScript = standardScript .p2wpkh h) (u : Bytes) :
    supplyCoins coins 0 (modIn txd idx fun i => { i with rawUnlockingScript := u }) = .ok tx := by
  have := supply_modify coins (fun i => { i with rawUnlockingScript := u, witness := i.witness ++ [] })
    (fun i => { i with witness := i.witness ++ [] }) c i 0 idx txd tx hs hc (by rw [Nat.zero_add]; exact hi)
    (by rw [hk]; intro t t1; exact setTxIn_p2wpkh i _ c.value h hh c.redeemScript u [] t t1)
  simp only [List.append_nil] at this
  rw [Nat.zero_add] at this
  rw [this]
  exact congrArg Res.ok (modIn_id tx idx)

omit [Hashes] in
private theorem encodable_modIn {tx : Transaction} (h : Encodable tx) (idx : ℕ) (f : TxIn → TxIn) (hf : ∀ i ∈ tx.inputs, (f i).hash = i.hash ∧
    (f i).witness = i.witness ∧ (tx.inputs[idx]? = some i → (f i).rawUnlockingScript.length < 2^62)) : Encodable (modIn tx idx f) := by
  have key : ∀ j ∈ (modIn tx idx f).inputs, ∃ i ∈ tx.inputs, j.hash = i.hash ∧ j.witness = i.witness ∧ j.rawUnlockingScript.length < 2^62 := by
    intro j hj
    obtain ⟨n, hn⟩ := List.mem_iff_getElem?.mp hj
    unfold modIn at hn
    rw [modify_get] at hn
    cases hx : tx.inputs[n]? with
    | none => rw [hx] at hn; split at hn <;> cases hn
    | some x =>
      have hm := List.mem_of_getElem? hx
      rw [hx] at hn
      split at hn
      · rename_i en
        subst en
        cases hn
        obtain ⟨q1, q2, q3⟩ := hf x hm
        exact ⟨x, hm, q1, q2, q3 hx⟩
      · cases hn
        exact ⟨_, hm, rfl, rfl, h.script _ hm⟩
  refine ⟨by unfold modIn; dsimp only; rw [List.length_modify]; exact h.ins, h.outs, ?_, ?_, h.out, ?_⟩
  · intro j hj
    obtain ⟨x, hx, q1, _, _⟩ := key j hj
    rw [q1]
    exact h.hash x hx
  · intro j hj
    obtain ⟨x, hx, _, _, q3⟩ := key j hj
    exact q3
  · intro j hj
    obtain ⟨x, hx, _, q2, _⟩ := key j hj
    rw [q2]
    exact h.wit x hx

omit [Hashes] in
/-- the identifier covers the script of an input without witness program -/
private theorem script_counts (tx : Transaction) (idx : ℕ) (i : TxIn) (hi : tx.inputs[idx]? = some i) (hn : i.witnessScriptCode = none)
    (u : Bytes) (hu : u ≠ i.rawUnlockingScript) (h : Encodable tx) (hl : u.length < 2^62) :
    serializeNoWitness (modIn tx idx fun i => { i with rawUnlockingScript := u }) ≠ serializeNoWitness tx := by
  intro e
  have h' : Encodable (modIn tx idx fun i => { i with rawUnlockingScript := u }) := encodable_modIn h idx _ fun _ _ => ⟨rfl, rfl, fun _ => hl⟩
  obtain ⟨_, _, _, e⟩ := C35_injective _ _ h' h e
  have e := congrArg (fun l => l[idx]?) e
  unfold modIn at e
  simp only [List.getElem?_map, modify_get, if_true, hi, Option.map_some, Option.some.injEq] at e
  have e := congrArg (fun q : Bytes × UInt32 × Bytes × UInt32 => q.2.2.1) e
  unfold scriptSig at e
  dsimp only at e
  rw [if_pos hn, if_pos hn] at e
  exact hu e

/-- what follows when the script of an input is not kept by SetTxIn -/
private theorem relayed (coins : List TxIn) (tx : Transaction) (he : Encodable tx) (hl : (wireSegwit tx).length < 2^43)
    (hn : ∀ i ∈ tx.inputs, i.witnessScriptCode = none) (txd : Transaction) (rest : Bytes) (hd : deserialize Tx.new (wireSegwit tx) = .ok (txd, rest))
    (a : Transaction) (idx : ℕ) (i : TxIn)
    (hi : tx.inputs[idx]? = some i) (u : Bytes)
    (hover : supplyCoins coins 0 (modIn txd idx fun i => { i with rawUnlockingScript := u }) = .ok a) (hu : u ≠ i.rawUnlockingScript)
    (hl' : (wireSegwit (modIn tx idx fun i => { i with rawUnlockingScript := u })).length < 2^43) :
    ∃ txd', deserialize Tx.new (wireSegwit (modIn tx idx fun i => { i with rawUnlockingScript := u })) = .ok (txd', []) ∧
      supplyCoins coins 0 txd' = .ok a ∧ (txHash txd' = txHash txd → ∃ x y, x ≠ y ∧ sha256d x = sha256d y) := by
  rw [deserialize_wire he hl] at hd
  cases hd
  have hul : u.length < 2^62 := by
    have e : (modIn tx idx fun i => { i with rawUnlockingScript := u }).inputs[idx]? = some { i with rawUnlockingScript := u } := by
      unfold modIn
      rw [modify_get, if_pos rfl, hi]
      rfl
    have hm := List.mem_of_getElem? e
    have : u.length ≤ (wireSegwit (modIn tx idx fun i => { i with rawUnlockingScript := u })).length := by
      have h1 := (List.sublist_flatten_of_mem (List.mem_map_of_mem
        (f := fun i : TxIn => wireIn i.hash i.index (scriptSig i) i.sequence) hm)).length_le
      unfold wireSegwit counted
      simp only [List.length_append, List.flatMap]
      have h2 : u.length ≤ (wireIn i.hash i.index (scriptSig { i with rawUnlockingScript := u }) i.sequence).length := by
        unfold wireIn scriptSig varStr
        rw [if_pos (hn i (List.mem_of_getElem? hi))]
        simp only [List.length_append]
        omega
      dsimp only at h1
      omega
    omega
  have he' : Encodable (modIn tx idx fun i => { i with rawUnlockingScript := u }) := encodable_modIn he idx _ fun _ _ => ⟨rfl, rfl, fun _ => hul⟩
  have emap : (modIn tx idx fun i => { i with rawUnlockingScript := u }).inputs.map (fun i => { parsedIn i with witness := i.witness }) =
      (tx.inputs.map (fun i => { parsedIn i with witness := i.witness })).modify idx (fun i => { i with rawUnlockingScript := u }) := by
    unfold modIn
    dsimp only
    apply List.ext_getElem?
    intro n
    simp only [List.getElem?_map, modify_get]
    cases hx : tx.inputs[n]? with
    | none => split <;> rfl
    | some x =>
      have hxn := hn x (List.mem_of_getElem? hx)
      split
      · simp only [Option.map_some, parsedIn, scriptSig, hxn, if_true]
      · rfl
  have hser : ∀ t : Transaction, Encodable t → Encodable { Tx.new with
      version := t.version, lockTime := t.lockTime,
      inputs := t.inputs.map (fun i => { parsedIn i with witness := i.witness }), outputs := t.outputs } := by
    intro t ht
    refine ⟨by simpa using ht.ins, ht.outs, ?_, ?_, ht.out, ?_⟩
    · intro j hj
      obtain ⟨x, hx, rfl⟩ := List.mem_map.mp hj
      exact ht.hash x hx
    · intro j hj
      obtain ⟨x, hx, rfl⟩ := List.mem_map.mp hj
      change (scriptSig x).length < _
      unfold scriptSig
      split
      · exact ht.script x hx
      · decide
    · intro j hj
      obtain ⟨x, hx, rfl⟩ := List.mem_map.mp hj
      exact ht.wit x hx
  have g : ({ parsedIn i with witness := i.witness } : TxIn).rawUnlockingScript = i.rawUnlockingScript := by
    change scriptSig i = _
    unfold scriptSig
    rw [if_pos (hn i (List.mem_of_getElem? hi))]
  have hi' : (tx.inputs.map (fun i => ({ parsedIn i with witness := i.witness } : TxIn)))[idx]? = some { parsedIn i with witness := i.witness } := by
    rw [List.getElem?_map, hi]
    rfl
  have eh := hser _ he
  refine ⟨_, deserialize_wire he' hl', ?_, ?_⟩
  · rw [emap]
    exact hover
  · intro e
    rw [emap] at e
    exact ⟨_, _, script_counts _ idx _ hi' rfl u (by rw [g]; exact hu) eh hul, e⟩

/-- **C121 (negation).** Whoever relays a transaction that spends a P2WPKH coin can give it another identifier: with any other
script in the script field of the input, what is received has another identifier (unless SHA-256 collides), and once supplied
with its coins it is the same object as before, so Verify accepts the one exactly if it accepts the other. BIP141 rules that such
a script must be empty. -/
theorem C121_negation (coins : List TxIn) (tx : Transaction) (he : Encodable tx) (hl : (wireSegwit tx).length < 2^43)
    (hn : ∀ i ∈ tx.inputs, i.witnessScriptCode = none) (txd : Transaction) (rest : Bytes) (hd : deserialize Tx.new (wireSegwit tx) = .ok (txd, rest))
    (a : Transaction) (hs : supplyCoins coins 0 txd = .ok a) (idx : ℕ) (c i : TxIn)
    (hc : coins[idx]? = some c) (hi : tx.inputs[idx]? = some i) (h : Bytes) (hh : h.length = 20)
    (hk : c.rawLockingScript = standardScript .p2wpkh h) (u : Bytes) (hu : u ≠ i.rawUnlockingScript)
    (hl' : (wireSegwit (modIn tx idx fun i => { i with rawUnlockingScript := u })).length < 2^43) :
    ∃ txd', deserialize Tx.new (wireSegwit (modIn tx idx fun i => { i with rawUnlockingScript := u })) = .ok (txd', []) ∧
      supplyCoins coins 0 txd' = .ok a ∧ (txHash txd' = txHash txd → ∃ x y, x ≠ y ∧ sha256d x = sha256d y) := by
  have hi' : txd.inputs[idx]? = some { parsedIn i with witness := i.witness } := by
    rw [deserialize_wire he hl] at hd
    cases hd
    dsimp only
    rw [List.getElem?_map, hi]
    rfl
  exact relayed coins tx he hl hn txd rest hd a idx i hi u (C121_p2wpkh_script coins txd a hs idx c _ hc hi' h hh hk u) hu hl'

/-- the script of the input is overwritten when the witness gives one -/
private theorem setTxIn_over (i : TxIn) (k : ℕ) (v : UInt64) (s : Bytes) (ls : LockScript) (hp : parse s = .ok ls) (w : Bytes)
    (hw : witnessToUnlocking ls i.witness = .ok (some w)) (r : Option Bytes) (u : Bytes)
    (t t1 : Transaction) (hi : t.inputs[k]? = some i) (hs : setTxIn t k v s r = .ok t1) :
    setTxIn (modIn t k fun i => { i with rawUnlockingScript := u }) k v s r = .ok (modIn t1 k id) := by
  have e : (modIn t k fun i => { i with rawUnlockingScript := u }).inputs[k]? = some { i with rawUnlockingScript := u } := by
    unfold modIn
    rw [modify_get, if_pos rfl, hi]
    rfl
  unfold setTxIn at hs ⊢
  rw [hi, hp, show Res.ofIdx (some i) = .ok i from rfl, Res.ok_bind, Res.ok_bind, hw, Res.ok_bind] at hs
  rw [e, hp, show ∀ x : TxIn, Res.ofIdx (some x) = .ok x from fun _ => rfl, Res.ok_bind, Res.ok_bind]
  dsimp only
  rw [hw, Res.ok_bind, modIn_id]
  rw [← hs]
  change Res.ok _ = Res.ok _
  congr 1
  unfold putInput modIn
  dsimp only
  congr 1
  apply List.ext_getElem?
  intro n
  simp only [List.getElem?_set, modify_get, List.length_modify]
  by_cases h1 : k = n
  · subst h1
    rw [if_pos rfl, if_pos rfl]
    rfl
  · rw [if_neg h1, if_neg h1, if_neg h1]

/-- **C121.** The same for a P2WSH coin spent by a witness of at least two items the last of which is a multi-signature script: any script in the
script field gives the same object after SetTxIn. -/
theorem C121_p2wsh_script (coins : List TxIn) (txd tx : Transaction) (hs : supplyCoins coins 0 txd = .ok tx) (idx : ℕ) (c i : TxIn)
    (hc : coins[idx]? = some c) (hi : txd.inputs[idx]? = some i) (h : Bytes) (hh : h.length = 32)
    (hk : c.rawLockingScript = standardScript .p2wsh h) (items : List Bytes) (redeem : Bytes) (hw : i.witness = items ++ [redeem])
    (h1 : items ≠ []) (is : List Instruction) (his : allInstructions redeem = .ok is) (hm : isMultiSig is = true) (u : Bytes) :
    supplyCoins coins 0 (modIn txd idx fun i => { i with rawUnlockingScript := u }) = .ok tx := by
  have hp := C29_parse_build .p2wsh h hh
  rw [C29_build .p2wsh h hh] at hp
  have hun : ∃ w, witnessToUnlocking ⟨.p2wsh, h⟩ i.witness = .ok (some w) := by
    have hpos := List.length_pos_iff.mpr h1
    refine ⟨(addData ((items ++ [redeem]).dropLast.foldl addData Buffer.new) redeem).data, ?_⟩
    unfold witnessToUnlocking
    dsimp only
    rw [hw, List.getLast?_concat]
    dsimp only
    rw [if_pos (by simp; omega), his]
    dsimp only
    rw [if_pos hm]
  obtain ⟨w, hun⟩ := hun
  have := supply_modify coins (fun i => { i with rawUnlockingScript := u }) id c i 0 idx txd tx hs hc (by rw [Nat.zero_add]; exact hi)
    (by rw [hk]; intro t t1; exact setTxIn_over i _ c.value _ _ hp w hun c.redeemScript u t t1)
  rw [Nat.zero_add] at this
  rw [this, modIn_id]

/-- **C121 (negation), P2WSH.** As `C121_negation`, for a P2WSH coin spent by a witness whose last item is a multi-signature script. -/
theorem C121_negation_p2wsh (coins : List TxIn) (tx : Transaction) (he : Encodable tx) (hl : (wireSegwit tx).length < 2^43)
    (hn : ∀ i ∈ tx.inputs, i.witnessScriptCode = none) (txd : Transaction) (rest : Bytes) (hd : deserialize Tx.new (wireSegwit tx) = .ok (txd, rest))
    (a : Transaction) (hs : supplyCoins coins 0 txd = .ok a) (idx : ℕ) (c i : TxIn)
    (hc : coins[idx]? = some c) (hi : tx.inputs[idx]? = some i) (h : Bytes) (hh : h.length = 32)
    (hk : c.rawLockingScript = standardScript .p2wsh h) (items : List Bytes) (redeem : Bytes) (hw : i.witness = items ++ [redeem])
    (h1 : items ≠ []) (is : List Instruction) (his : allInstructions redeem = .ok is) (hm : isMultiSig is = true)
    (u : Bytes) (hu : u ≠ i.rawUnlockingScript)
    (hl' : (wireSegwit (modIn tx idx fun i => { i with rawUnlockingScript := u })).length < 2^43) :
    ∃ txd', deserialize Tx.new (wireSegwit (modIn tx idx fun i => { i with rawUnlockingScript := u })) = .ok (txd', []) ∧
      supplyCoins coins 0 txd' = .ok a ∧ (txHash txd' = txHash txd → ∃ x y, x ≠ y ∧ sha256d x = sha256d y) := by
  have hi' : txd.inputs[idx]? = some { parsedIn i with witness := i.witness } := by
    rw [deserialize_wire he hl] at hd
    cases hd
    dsimp only
    rw [List.getElem?_map, hi]
    rfl
  exact relayed coins tx he hl hn txd rest hd a idx i hi u
    (C121_p2wsh_script coins txd a hs idx c _ hc hi' h hh hk items redeem hw h1 is his hm u) hu hl'

/-! ### legacy inputs -/

/-- **C121 (negation), P2PKH.** Whoever relays an accepted transaction can put a push of any data in front of the script of an input
that spends a P2PKH coin with two elements, the signature and the key: it is accepted as before, and has another identifier unless
SHA-256 collides. -/
theorem C121_negation_p2pkh (E : Ecdsa κ) (tx : Transaction) (hv : (verify E tx).1 = .ok ()) (idx : ℕ) (i : TxIn)
    (hi : tx.inputs[idx]? = some i) (h : Bytes) (hh : h.length = 20) (hraw : i.rawLockingScript = standardScript .p2pkh h)
    (hfin : i.finalLockingScript = standardScript .p2pkh h) (hn : i.witnessScriptCode = none) (vm : State)
    (hrun : execute (legacyEnv E tx idx) i.rawUnlockingScript false fresh = .ok vm) (htwo : vm.dstack.length = 2)
    (x : Bytes) (hx : x.length < 2^32) (h0 : x ≠ [0x00]) (h81 : x ≠ [0x81]) (he : Encodable tx)
    (hl : ((addData Buffer.new x).data ++ i.rawUnlockingScript).length < 2^61) :
    let tx' := modIn tx idx fun i => { i with rawUnlockingScript := (addData Buffer.new x).data ++ i.rawUnlockingScript }
    (verify E tx').1 = .ok () ∧ (txHash tx' = txHash tx → ∃ a b, a ≠ b ∧ sha256d a = sha256d b) := by
  dsimp only
  have hl0 : i.rawUnlockingScript.length < 2^61 := by rw [List.length_append] at hl; omega
  -- the input spends its coin
  have hsp : Spends E tx idx .p2pkh h i.rawUnlockingScript := by
    obtain ⟨tx1, hs, hok⟩ := each_same hv idx i hi
    have := (C111_legacy_iff E tx1 idx i .p2pkh h (.inl rfl) hh hraw hfin hl0).mp hok
    refine (spends_unsigned E ?_ idx .p2pkh h _).mp this
    obtain ⟨q1, q2, q3, q4⟩ := hs
    unfold unsigned
    exact ⟨q1, q2, by dsimp only; rw [q3], q4⟩
  have hrun' : execute (legacyEnv E tx idx) ((addData Buffer.new x).data ++ i.rawUnlockingScript) false fresh =
      .ok ⟨vm.dstack ++ [x], vm.cstack⟩ := by
    have hb := C104_below (legacyEnv E tx idx) i.rawUnlockingScript [] [x] [] (by
      change execute _ _ false fresh ≠ _; rw [hrun]; intro k; cases k)
    change execute _ _ false ⟨[x], []⟩ = (execute _ _ false fresh >>= _) at hb
    rw [hrun, Res.ok_bind] at hb
    have hp := (C16_push_partial x hx h0 h81).2 (legacyEnv E tx idx) []
    rw [execute_false] at hp hb ⊢
    obtain ⟨ts, hts, es, hts'⟩ := run_ok (by rw [List.length_append] at hl; omega) hp
    rw [es] at hl ⊢
    exact (run_append_ok hts (by omega)).mpr ⟨_, hts', hb⟩
  have hsp' : Spends E tx idx .p2pkh h ((addData Buffer.new x).data ++ i.rawUnlockingScript) := by
    obtain ⟨vm1, r1, hcase⟩ := hsp
    rw [hrun] at r1
    cases r1
    refine ⟨_, hrun', ?_⟩
    rcases hcase with hc | ⟨hc, key, sig, rest, hd, hk, hsig, _⟩
    · exact .inl hc
    · refine .inr ⟨hc, key, sig, rest ++ [x], ?_, hk, hsig, ?_⟩
      · rw [hd]; rfl
      · intro hlen
        exfalso
        rw [hd] at htwo
        simp only [List.length_cons, List.length_append, List.length_nil] at htwo hlen
        omega
  constructor
  · rw [← hv]
    symm
    apply C121_same_verdict
    · unfold unsigned modIn
      dsimp only
      congr 1
      apply List.ext_getElem?
      intro n
      simp only [List.getElem?_map, modify_get]
      cases tx.inputs[n]? <;> split <;> rfl
    · intro n a b ha hb
      unfold modIn at hb
      rw [modify_get, ha] at hb
      split at hb
      · rename_i en
        subst en
        rw [hi] at ha
        cases ha
        cases hb
        exact .inr ⟨.p2pkh, h, .inl rfl, hh, hraw, hfin, hl0, hl, hsp, hsp'⟩
      · cases hb
        exact .inl rfl
  · intro e
    have em : (modIn tx idx fun i => { i with rawUnlockingScript := (addData Buffer.new x).data ++ i.rawUnlockingScript }) =
        modIn tx idx fun j => { j with rawUnlockingScript := (addData Buffer.new x).data ++ i.rawUnlockingScript } := by
      unfold modIn
      congr 1
      apply List.ext_getElem?
      intro n
      rw [modify_get, modify_get]
      split
      · rename_i en
        subst en
        rw [hi]
        rfl
      · rfl
    rw [em] at e
    refine ⟨_, _, script_counts tx idx i hi hn _ ?_ he (by omega), e⟩
    intro k
    have := congrArg List.length k
    rw [List.length_append] at this
    have hpos : 0 < (addData Buffer.new x).data.length := by
      rw [VM.addData_data _ _ hx]
      simp [Token.enc]
    omega

/-- the script of an accepted input of a P2PKH coin spends it -/
private theorem accepted_spends (E : Ecdsa κ) (tx : Transaction) (hv : (verify E tx).1 = .ok ()) (idx : ℕ) (i : TxIn)
    (hi : tx.inputs[idx]? = some i) (h : Bytes) (hh : h.length = 20) (hraw : i.rawLockingScript = standardScript .p2pkh h)
    (hfin : i.finalLockingScript = standardScript .p2pkh h) (hl : i.rawUnlockingScript.length < 2^61) :
    Spends E tx idx .p2pkh h i.rawUnlockingScript := by
  obtain ⟨tx1, hs, hok⟩ := each_same hv idx i hi
  have := (C111_legacy_iff E tx1 idx i .p2pkh h (.inl rfl) hh hraw hfin hl).mp hok
  refine (spends_unsigned E ?_ idx .p2pkh h _).mp this
  obtain ⟨q1, q2, q3, q4⟩ := hs
  unfold unsigned
  exact ⟨q1, q2, by dsimp only; rw [q3], q4⟩

/-- with another script that spends the coin too, it is accepted as before -/
private theorem other_script (E : Ecdsa κ) (tx : Transaction) (hv : (verify E tx).1 = .ok ()) (idx : ℕ) (i : TxIn)
    (hi : tx.inputs[idx]? = some i) (h : Bytes) (hh : h.length = 20) (hraw : i.rawLockingScript = standardScript .p2pkh h)
    (hfin : i.finalLockingScript = standardScript .p2pkh h) (hl : i.rawUnlockingScript.length < 2^61) (u : Bytes) (hu : u.length < 2^61)
    (hsp : Spends E tx idx .p2pkh h u) : (verify E (modIn tx idx fun i => { i with rawUnlockingScript := u })).1 = .ok () := by
  rw [← hv]
  symm
  apply C121_same_verdict
  · unfold unsigned modIn
    dsimp only
    congr 1
    apply List.ext_getElem?
    intro n
    simp only [List.getElem?_map, modify_get]
    cases tx.inputs[n]? <;> split <;> rfl
  · intro n a b ha hb
    unfold modIn at hb
    rw [modify_get, ha] at hb
    split at hb
    · rename_i en
      subst en
      rw [hi] at ha
      cases ha
      cases hb
      exact .inr ⟨.p2pkh, h, .inl rfl, hh, hraw, hfin, hl, hu, accepted_spends E tx hv idx i hi h hh hraw hfin hl, hsp⟩
    · cases hb
      exact .inl rfl

/-! ### the other signature -/

open Toku.Curve Toku.Keys in
omit [Hashes] in
/-- **C121.** For all numbers `r`, `s`: with `N - s` in place of `s` a signature is verified with the same result. -/
theorem C121_other_s (q : Pt) (hash : Bytes) (r s : ℤ) :
    Ecdsa.verify (keyOf q) hash r (N - s) = Ecdsa.verify (keyOf q) hash r s := by
  have bad : ∀ r s : ℤ, ¬ ((1 ≤ r ∧ r < N) ∧ 1 ≤ s ∧ s < N) → Ecdsa.verify (keyOf q) hash r s = .ok false := by
    intro r s h
    unfold Ecdsa.verify
    split
    · rfl
    · rw [if_pos (by omega)]
  by_cases hrs : (1 ≤ r ∧ r < N) ∧ 1 ≤ s ∧ s < N
  swap
  · rw [bad r s hrs, bad r (N - s) (by omega)]
  obtain ⟨hr, hs⟩ := hrs
  obtain ⟨w, hw, u1, u2, e1, e2, _⟩ := Ecdsa.verify_eq q hash hr hs
  have a1 : (u1 : ZMod N) * (s : ℤ) = Ecdsa.hashToInt hash := by rw [e1]; linear_combination (Ecdsa.hashToInt hash : ZMod N) * hw
  have a2 : (u2 : ZMod N) * (s : ℤ) = (r : ℤ) := by rw [e2]; linear_combination (r : ZMod N) * hw
  have hN1 : (1 : ℕ) ≤ N := by decide +kernel
  have hm : (((N - 1 : ℕ)) : ZMod N) = -1 := by
    rw [Nat.cast_sub hN1, ZMod.natCast_self]
    simp
  have hns : (((N : ℤ) - s : ℤ) : ZMod N) = -(s : ZMod N) := by
    push_cast
    rw [ZMod.natCast_self]
    ring
  have b1 : (((N - 1) * u1 : ℕ) : ZMod N) * (((N : ℤ) - s : ℤ)) = Ecdsa.hashToInt hash := by
    rw [hns, Nat.cast_mul, hm]
    linear_combination a1
  have b2 : (((N - 1) * u2 : ℕ) : ZMod N) * (((N : ℤ) - s : ℤ)) = (r : ℤ) := by
    rw [hns, Nat.cast_mul, hm]
    linear_combination a2
  have hp : ((N - 1) * u1) • G + ((N - 1) * u2) • q = -(u1 • G + u2 • q) := by
    rw [mul_comm _ u1, mul_comm _ u2, mul_nsmul, mul_nsmul, ← nsmul_add]
    generalize u1 • G + u2 • q = p
    rw [eq_neg_iff_add_eq_zero]
    calc (N - 1) • p + p = (N - 1 + 1) • p := by rw [add_nsmul, one_nsmul]
      _ = N • p := by rw [Nat.sub_add_cancel hN1]
      _ = 0 := N_smul p
  unfold keyOf
  rw [Ecdsa.verify_iff q (N_smul q) hash hr hs u1 u2 a1 a2,
    Ecdsa.verify_iff q (N_smul q) hash hr (by omega) _ _ b1 b2, hp, Ecdsa.coords_neg]
  simp only [neg_ne_zero]

open Toku.Curve Toku.Keys in
omit [Hashes] in
/-- **C121.** From an accepted signature anyone makes another one, without the key: the DER form of `(r, N - s)`. It has at most 72
bytes. -/
theorem C121_other_signature (hash sig pub : Bytes) (h : Ecdsa.verifyBytes hash sig pub = .ok ()) :
    ∃ r s, Der.unmarshal sig = .ok (r, s) ∧ Ecdsa.verifyBytes hash (Der.marshal r (N - s)) pub = .ok () ∧
      Der.marshal r (N - s) ≠ sig ∧ 8 ≤ (Der.marshal r (N - s)).length ∧ (Der.marshal r (N - s)).length ≤ 72 := by
  obtain ⟨q, r, s, hp, hq, hu, hsig⟩ := (C86_verify hash sig pub).mp h
  have hrs : (1 ≤ r ∧ r < N) ∧ (1 ≤ s ∧ s < N) := ⟨hsig.1, hsig.2.1⟩
  have hN : (N : ℤ) < 128 * 256 ^ 32 := by decide +kernel
  have hlen := Der.marshal_length (Der.intContent_length (k := 32) (by omega : 0 ≤ r) (by omega))
    (Der.intContent_length (k := 32) (by omega : 0 ≤ (N : ℤ) - s) (by omega)) (by omega)
  have hrt := C65_round_trip r (N - s) (by omega)
  refine ⟨r, s, hu, ?_, ?_, by omega, by omega⟩
  · rw [C86_verify]
    refine ⟨q, r, N - s, hp, hq, hrt, ?_⟩
    rcases C62_verify q hash r s with ⟨v, _⟩ | ⟨_, v⟩
    · rcases C62_verify q hash r (N - s) with ⟨_, v'⟩ | ⟨v', _⟩
      · exact v'
      · rw [C121_other_s, v] at v'
        cases v'
    · exact absurd hsig v
  · intro e
    rw [e, hu] at hrt
    have hodd : (N : ℤ) % 2 = 1 := by decide +kernel
    have : s = N - s := congrArg Prod.snd (Res.ok.inj hrt)
    omega

open Toku.Curve Toku.Keys in
omit [Hashes] in
/-- **C121.** Bytes after an accepted signature make no difference. -/
theorem C121_trailing (hash sig pub junk : Bytes) (h : Ecdsa.verifyBytes hash sig pub = .ok ()) :
    Ecdsa.verifyBytes hash (sig ++ junk) pub = .ok () := by
  obtain ⟨q, r, s, hp, hq, hu, hsig⟩ := (C86_verify hash sig pub).mp h
  rw [C86_verify]
  refine ⟨q, r, s, hp, hq, ?_, hsig⟩
  rw [Der.unmarshal_iff] at hu ⊢
  obtain ⟨extra, trailing, hl, e⟩ := hu
  exact ⟨extra, trailing ++ junk, hl, by rw [e, List.append_assoc]⟩

omit [Hashes] in
/-- two pushes -/
private theorem push_both (env : VM.Env) (a b : Bytes) (la : a.length < 2^32) (lb : b.length < 2^32) (a0 : a ≠ [0x00]) (a1 : a ≠ [0x81])
    (b0 : b ≠ [0x00]) (b1 : b ≠ [0x81]) :
    (addData (addData Buffer.new a) b).data = (addData Buffer.new a).data ++ (addData Buffer.new b).data ∧
    ((addData (addData Buffer.new a) b).data).length < 2^35 ∧
    execute env (addData (addData Buffer.new a) b).data false fresh = .ok ⟨[b, a], []⟩ := by
  have e : (addData (addData Buffer.new a) b).data = (addData Buffer.new a).data ++ (addData Buffer.new b).data := by
    rw [VM.addData_data _ _ lb, VM.addData_data _ b lb]
    rfl
  have len : ∀ d : Bytes, d.length < 2^32 → (addData Buffer.new d).data.length < 2^33 := by
    intro d hd
    rw [VM.addData_data _ _ hd]
    have h1 := Script.enc_length (pushToken d)
    have h2 := Script.lenWidth_le (pushToken d).op
    have h3 : (pushToken d).data.length ≤ d.length := by unfold pushToken; split_ifs <;> simp
    change ([] ++ (pushToken d).enc).length < _
    rw [List.nil_append]
    omega
  have hlen := len a la
  have hlen' := len b lb
  refine ⟨e, by rw [e, List.length_append]; omega, ?_⟩
  have pa := (C16_push_partial a la a0 a1).2 env []
  have pb := (C16_push_partial b lb b0 b1).2 env [a]
  rw [e]
  rw [execute_false] at pa pb ⊢
  obtain ⟨ts, hts, es, hts'⟩ := run_ok (by omega) pa
  rw [es] at hlen ⊢
  exact (run_append_ok hts (by rw [List.length_append]; omega)).mpr ⟨_, hts', pb⟩

/-- **C121 (negation), any legacy input.** With secp256k1 ECDSA as implemented: whoever relays an accepted transaction can put another
signature in place of the one in an input that spends a P2PKH coin. It is accepted as before, and has another identifier unless SHA-256
collides. -/
theorem C121_negation_signature (fuel : ℕ) (tx : Transaction) (hv : (verify (Ecdsa.scheme fuel) tx).1 = .ok ()) (idx : ℕ) (i : TxIn)
    (hi : tx.inputs[idx]? = some i) (h : Bytes) (hh : h.length = 20) (hraw : i.rawLockingScript = standardScript .p2pkh h)
    (hfin : i.finalLockingScript = standardScript .p2pkh h) (hn : i.witnessScriptCode = none) (he : Encodable tx) (der key : Bytes) (t : UInt8)
    (ld : (der ++ [t]).length < 2^32) (lk : key.length < 2^32) (d0 : der ++ [t] ≠ [0x00]) (d1 : der ++ [t] ≠ [0x81]) (k0 : key ≠ [0x00]) (k1 : key ≠ [0x81])
    (hu : i.rawUnlockingScript = (addData (addData Buffer.new (der ++ [t])) key).data) :
    ∃ der', der' ≠ der ∧
      let tx' := modIn tx idx fun i => { i with rawUnlockingScript := (addData (addData Buffer.new (der' ++ [t])) key).data }
      (verify (Ecdsa.scheme fuel) tx').1 = .ok () ∧ (txHash tx' = txHash tx → ∃ a b, a ≠ b ∧ sha256d a = sha256d b) := by
  obtain ⟨ea, la, ra⟩ := push_both (legacyEnv (Ecdsa.scheme fuel) tx idx) (der ++ [t]) key ld lk d0 d1 k0 k1
  have hl : i.rawUnlockingScript.length < 2^61 := by rw [hu]; omega
  obtain ⟨vm, r1, hcase⟩ := accepted_spends _ tx hv idx i hi h hh hraw hfin hl
  rw [hu, ra] at r1
  cases r1
  rcases hcase with hc | ⟨_, key', sig, rest, hd, hk, ⟨der0, t0, hash, es, eh, ev⟩, _⟩
  · cases hc
  cases hd
  obtain ⟨rfl, e2⟩ := List.append_inj' es rfl
  cases e2
  obtain ⟨r, s, _, hv', hne, l8, l72⟩ := C121_other_signature hash der key ev
  generalize Der.marshal r (Curve.N - s) = der' at hv' hne l8 l72
  have l9 : (der' ++ [t]).length = der'.length + 1 := by simp
  have z : ∀ c : UInt8, der' ++ [t] ≠ [c] := by
    intro c e
    have := congrArg List.length e
    rw [l9] at this
    simp only [List.length_cons, List.length_nil] at this
    omega
  obtain ⟨eb, lb, rb⟩ := push_both (legacyEnv (Ecdsa.scheme fuel) tx idx) (der' ++ [t]) key (by omega) lk (z _) (z _) k0 k1
  refine ⟨der', hne, ?_, ?_⟩
  · refine other_script _ tx hv idx i hi h hh hraw hfin hl _ (by omega) ⟨_, rb, .inr ⟨rfl, key, der' ++ [t], [], rfl, hk, ?_, ?_⟩⟩
    · exact ⟨der', t, hash, rfl, eh, hv'⟩
    · intro hlen
      simp only [List.length_nil] at hlen
      omega
  · intro e
    refine ⟨_, _, script_counts tx idx i hi hn _ ?_ he (by omega), e⟩
    rw [hu]
    intro k
    have rb' := rb
    rw [k, ra] at rb'
    have e1 : der ++ [t] = der' ++ [t] := (List.cons.inj (List.cons.inj (congrArg State.dstack (Res.ok.inj rb'))).2).1
    exact hne (List.append_cancel_right e1).symm

/-! ### what holds -/

omit [Hashes] in
private theorem flatMap_inj {α β : Type} {enc : α → Bytes} {norm : α → β} {ok : α → Prop}
    (hp : ∀ x y s t, ok x → ok y → enc x ++ s = enc y ++ t → norm x = norm y ∧ s = t) (hne : ∀ x, enc x ≠ []) :
    ∀ l m : List α, (∀ x ∈ l, ok x) → (∀ x ∈ m, ok x) → l.flatMap enc = m.flatMap enc → l.map norm = m.map norm
  | [], [], _, _, _ => rfl
  | [], y :: m, _, _, h => by
    rw [List.flatMap_nil, List.flatMap_cons] at h
    exact absurd (List.append_eq_nil_iff.mp h.symm).1 (hne y)
  | x :: l, [], _, _, h => by
    rw [List.flatMap_nil, List.flatMap_cons] at h
    exact absurd (List.append_eq_nil_iff.mp h).1 (hne x)
  | x :: l, y :: m, hl, hm, h => by
    rw [List.flatMap_cons, List.flatMap_cons] at h
    obtain ⟨e, h⟩ := hp x y _ _ (hl x (by simp)) (hm y (by simp)) h
    rw [List.map_cons, List.map_cons, e,
      flatMap_inj hp hne l m (fun z hz => hl z (by simp [hz])) (fun z hz => hm z (by simp [hz])) h]

/-- **C121 (partial).** Full statement: whoever relays an accepted transaction cannot change its identifier and keep it accepted. False for
the identifier computed from what was received (`C121_negation`) and for inputs without witness (`C121_negation_p2pkh`,
`C121_negation_signature`). Proved: with witness inputs only, the identifier computed after SetTxIn is determined by what is signed with
hash type 1: two transactions in which some inputs have the same signature hash have the same identifier, or two different byte strings
with the same double SHA-256 can be written down. -/
theorem C121_identifier_partial (tx tx' : Transaction) (h : Encodable tx) (h' : Encodable tx')
    (hw : ∀ i ∈ tx.inputs, ∃ c, i.witnessScriptCode = some c ∧ c.length < 2^62)
    (hw' : ∀ i ∈ tx'.inputs, ∃ c, i.witnessScriptCode = some c ∧ c.length < 2^62)
    (hc : tx.hashPrevouts = none ∧ tx.hashSequence = none ∧ tx.hashOutputs = none)
    (hc' : tx'.hashPrevouts = none ∧ tx'.hashSequence = none ∧ tx'.hashOutputs = none)
    (idx idx' : ℕ) (hash : Bytes) (t t' : Transaction) (e : witnessSignatureHash tx idx 1 = .ok (hash, t))
    (e' : witnessSignatureHash tx' idx' 1 = .ok (hash, t')) :
    txHash tx = txHash tx' ∨ ∃ a b, a ≠ b ∧ sha256d a = sha256d b := by
  have get : ∀ (tx : Transaction) (idx : ℕ) (t : Transaction), witnessSignatureHash tx idx 1 = .ok (hash, t) → ∃ i, tx.inputs[idx]? = some i := by
    intro tx idx t e
    unfold witnessSignatureHash at e
    cases hi : tx.inputs[idx]? with
    | none => rw [hi] at e; cases e
    | some i => exact ⟨i, rfl⟩
  obtain ⟨i, hi⟩ := get tx idx t e
  obtain ⟨i', hi'⟩ := get tx' idx' t' e'
  obtain ⟨c, hcc, hcl⟩ := hw i (List.mem_of_getElem? hi)
  obtain ⟨c', hcc', hcl'⟩ := hw' i' (List.mem_of_getElem? hi')
  obtain ⟨t1, e1⟩ := C41_bip143 tx h idx i hi (fun d hd => by rw [hcc] at hd; cases hd; exact hcl) hc.1 hc.2.1 hc.2.2
  obtain ⟨t1', e1'⟩ := C41_bip143 tx' h' idx' i' hi' (fun d hd => by rw [hcc'] at hd; cases hd; exact hcl') hc'.1 hc'.2.1 hc'.2.2
  have d1 : hash = sha256d (bip143 tx idx i 1) := by rw [e] at e1; exact congrArg Prod.fst (Res.ok.inj e1)
  have d2 : hash = sha256d (bip143 tx' idx' i' 1) := by rw [e'] at e1'; exact congrArg Prod.fst (Res.ok.inj e1')
  have col : ∀ a b : Bytes, sha256d a = sha256d b → a = b ∨ ∃ a b, a ≠ b ∧ sha256d a = sha256d b := by
    intro a b hab
    by_cases q : a = b
    · exact .inl q
    · exact .inr ⟨a, b, q, hab⟩
  rcases col _ _ (d1.symm.trans d2) with hb | hb
  swap
  · exact .inr hb
  obtain ⟨f1, f2, _, _, _, _, _, _, f3, f4⟩ := C41_injective tx tx' i i' idx idx' 1 1 (h.hash i (List.mem_of_getElem? hi))
    (h'.hash i' (List.mem_of_getElem? hi')) c c' hcc hcc' hcl hcl' hb
  rcases col _ _ (f3 (by decide)) with g1 | g1
  swap
  · exact .inr g1
  rcases col _ _ (f4 rfl).1 with g2 | g2
  swap
  · exact .inr g2
  rcases col _ _ (f4 rfl).2 with g3 | g3
  swap
  · exact .inr g3
  left
  have m1 := flatMap_inj (norm := fun i : TxIn => (i.hash, i.index)) (ok := fun i : TxIn => i.hash.length = 32) (by
    intro x y s t hx hy q
    rw [List.append_assoc, List.append_assoc] at q
    obtain ⟨q1, q⟩ := List.append_inj q (by rw [hx, hy])
    obtain ⟨q2, q⟩ := Wire.le4_prefix q
    exact ⟨by rw [q1, q2], q⟩) (by
      intro x q
      have := congrArg List.length q
      rw [List.length_append, Wire.le_length] at this
      simp at this) _ _ h.hash h'.hash g1
  have m2 := flatMap_inj (norm := fun i : TxIn => i.sequence) (ok := fun _ => True) (by
    intro x y s t _ _ q
    exact Wire.le4_prefix q) (by
      intro x q
      have := congrArg List.length q
      rw [Wire.le_length] at this
      simp at this) _ _ (fun _ _ => trivial) (fun _ _ => trivial) g2
  have m3 := flatMap_inj (norm := id) (ok := fun o : TxOut => o.script.length < 2^62)
    (fun x y s t hx hy e => Wire.wireOut_prefix (by simp only [id]; omega) (by simp only [id]; omega) e) (by
      intro x q
      have := congrArg List.length q
      unfold wireOut at this
      rw [List.length_append, Wire.le_length] at this
      simp at this) _ _ h.out h'.out g3
  rw [List.map_id, List.map_id] at m3
  have hlen : tx.inputs.length = tx'.inputs.length := by
    have := congrArg List.length m2
    rwa [List.length_map, List.length_map] at this
  have m4 : tx.inputs.flatMap (fun i => wireIn i.hash i.index (scriptSig i) i.sequence) =
      tx'.inputs.flatMap (fun i => wireIn i.hash i.index (scriptSig i) i.sequence) := by
    have : tx.inputs.map (fun i => wireIn i.hash i.index (scriptSig i) i.sequence) =
        tx'.inputs.map (fun i => wireIn i.hash i.index (scriptSig i) i.sequence) := by
      apply List.ext_getElem?
      intro n
      have q1 := congrArg (fun l => l[n]?) m1
      have q2 := congrArg (fun l => l[n]?) m2
      simp only [List.getElem?_map] at q1 q2 ⊢
      cases hx : tx.inputs[n]? with
      | none =>
        rw [hx] at q1
        cases hy : tx'.inputs[n]? with
        | none => rfl
        | some y => rw [hy] at q1; cases q1
      | some x =>
        rw [hx] at q1 q2
        cases hy : tx'.inputs[n]? with
        | none => rw [hy] at q1; cases q1
        | some y =>
          rw [hy] at q1 q2
          simp only [Option.map_some, Option.some.injEq, Prod.mk.injEq] at q1 q2 ⊢
          obtain ⟨cx, ex, _⟩ := hw x (List.mem_of_getElem? hx)
          obtain ⟨cy, ey, _⟩ := hw' y (List.mem_of_getElem? hy)
          rw [q1.1, q1.2, q2]
          unfold scriptSig
          rw [ex, ey]
          rfl
    unfold List.flatMap
    rw [this]
  rw [C37_preimage tx h, C37_preimage tx' h']
  unfold wireLegacy counted
  rw [f1, f2, hlen, m3, m4]

end

/-- The coin of key 7 is spent by its signature with any script in the script field and a third item in the witness; a third item in
front is refused. The two received transactions have different identifiers. -/
example : spendSig.bind (fun s => spendVerdict .p2wpkh [s, toyEcdsa.pub 7 true] []) = .ok () ∧
    spendSig.bind (fun s => spendVerdict .p2wpkh [s, toyEcdsa.pub 7 true, [1, 2, 3]] [0x51, 0x6a]) = .ok () ∧
    spendSig.bind (fun s => spendVerdict .p2wpkh [[1, 2, 3], s, toyEcdsa.pub 7 true] []) = .err errVerifyFailed ∧
    @txHash Sha.realHashes (spendTx [] []) ≠ @txHash Sha.realHashes (spendTx [] [0x51, 0x6a]) := by
  refine ⟨by decide +kernel, by decide +kernel, by decide +kernel, by decide +kernel⟩

/-- The P2PKH coin of key 7 is spent by the script of its signature and key, with and without a push in front; with two pushes in front it
is refused, since the engine then runs the bytes of the key as a script. -/
example : spendSigLegacy.bind (fun s => spendVerdict .p2pkh [] (addData (addData Buffer.new s) (toyEcdsa.pub 7 true)).data) = .ok () ∧
    spendSigLegacy.bind (fun s => spendVerdict .p2pkh []
      ((addData Buffer.new [5, 6]).data ++ (addData (addData Buffer.new s) (toyEcdsa.pub 7 true)).data)) = .ok () ∧
    spendSigLegacy.bind (fun s => spendVerdict .p2pkh []
      ((addData (addData Buffer.new [5, 6]) [5, 6]).data ++ (addData (addData Buffer.new s) (toyEcdsa.pub 7 true)).data)) = .err errVerifyFailed := by
  refine ⟨by decide +kernel, by decide +kernel, by decide +kernel⟩

/-- A witness with a 1-of-1 script for a P2WSH coin: the script field makes no difference to the object after SetTxIn, but to the identifier. -/
example : let redeem : Bytes := [0x51, 0x21] ++ List.replicate 33 2 ++ [0x51, 0xae]
    let coin : TxIn := { spendCoin .p2wpkh with rawLockingScript := [0x00, 0x20] ++ List.replicate 32 7, redeemScript := some redeem }
    (allInstructions redeem).bind (fun is => .ok (isMultiSig is)) = .ok true ∧
    (∃ a, @supplyCoins modHashes [coin] 0 (spendTx [[], [9, 1], redeem] []) = .ok a ∧
      @supplyCoins modHashes [coin] 0 (spendTx [[], [9, 1], redeem] [0x51]) = .ok a) ∧
    @txHash modHashes (spendTx [[], [9, 1], redeem] []) ≠ @txHash modHashes (spendTx [[], [9, 1], redeem] [0x51]) := by
  refine ⟨by decide +kernel, ?_, by decide +kernel⟩
  exact ⟨_, rfl, by decide +kernel⟩

/-- A signature with the key 5 and the other one, both accepted. -/
example : (@Ecdsa.sign toyHashes 1 5 [1, 2, 3]).bind (fun p => do
    let k ← Keys.prvFromBytes [5]
    let a ← Ecdsa.verify k.pub [1, 2, 3] p.1 p.2
    let b ← Ecdsa.verify k.pub [1, 2, 3] p.1 (Curve.N - p.2)
    .ok (a, b)) = .ok (true, true) := by decide +kernel

/-- The same signature hash, different witnesses and scripts: the same identifier after SetTxIn. -/
example : (@supplyCoins modHashes [spendCoin .p2wpkh] 0 (spendTx [[1], [2]] [])).bind (fun a =>
    (@supplyCoins modHashes [spendCoin .p2wpkh] 0 (spendTx [[3], [4]] [0x51])).bind fun b => .ok (@txHash modHashes a == @txHash modHashes b &&
      decide ((@witnessSignatureHash modHashes a 0 1).bind (fun p => .ok p.1) = (@witnessSignatureHash modHashes b 0 1).bind (fun p => .ok p.1)) &&
      a.inputs.all fun i => i.witnessScriptCode.isSome)) = .ok true := by decide +kernel

end Toku.Props
