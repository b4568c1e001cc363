import Verif.Props.Spend
import Verif.Props.Twice
/-
Property C111, continued: exactly which transactions with P2PKH and P2SH inputs Verify accepts.
-/
namespace Toku.Props
open Toku Toku.Spec Toku.VM Toku.Locking Toku.Script Toku.Tx

section
variable {κ : Type} [Hashes]

/-- The callbacks for an input that spends a P2PKH or P2SH coin: the legacy signature hash of the transaction. -/
def legacyEnv (E : Ecdsa κ) (tx : Transaction) (idx : ℕ) : VM.Env :=
  ⟨hash160, some fun t => rawSignatureHash tx idx t.toUInt32, some E.verify⟩

private theorem legacy_agree (E : Ecdsa κ) (tx : Transaction) (idx : ℕ) :
    VMS.AgreeX True (fun s => s = tx) (legacyEnv E tx idx) (engineEnv E idx .base) (fun t => rawSignatureHash tx idx t.toUInt32) := by
  refine ⟨rfl, rfl, rfl, fun t => ?_⟩
  rintro _ s rfl
  exact ⟨s, rfl, rfl⟩

/-- **C111.** What Verify does for an input that spends a P2PKH or P2SH coin: it runs the engine with the legacy signature hash;
the transaction, its digest caches included, stays as it is. -/
theorem C111_legacy_input (E : Ecdsa κ) (tx : Transaction) (idx : ℕ) (i : TxIn) (s : LockScript) (hp : parse i.rawLockingScript = .ok s)
    (hs : s.kind = .p2pkh ∨ s.kind = .p2sh) :
    (∃ r, verifyInput E idx i tx = (r, tx)) ∧
    ((verifyInput E idx i tx).1 = .ok () ↔
      ∃ vm, VM.verify (legacyEnv E tx idx) i.rawUnlockingScript i.finalLockingScript fresh = .ok vm) ∧
    ((verifyInput E idx i tx).1 = .panic ↔
      VM.verify (legacyEnv E tx idx) i.rawUnlockingScript i.finalLockingScript fresh = .panic) := by
  have hv : scriptVersion s = .base := by
    unfold scriptVersion
    rcases hs with h | h <;> rw [h]
  obtain ⟨tx', e, rfl⟩ := VMS.verify_sim (legacy_agree E tx idx) i.rawUnlockingScript i.finalLockingScript fresh (fun _ => trivial) tx rfl
  have hx : verifyInput E idx i tx' = match VMS.verify (engineEnv E idx .base) i.rawUnlockingScript i.finalLockingScript VM.fresh tx' with
      | (.ok _, tx) => (.ok (), tx)
      | (.err _, tx) => (.err errVerifyFailed, tx)
      | (.panic, tx) => (.panic, tx) := by
    unfold verifyInput
    rw [hp]
    rw [← hv]
    rfl
  rw [hx, e]
  cases VM.verify (legacyEnv E tx' idx) i.rawUnlockingScript i.finalLockingScript fresh <;> simp

/-- The signature, with its hash type byte, is good for the key and the legacy signature hash of the input. -/
def LegacySig (E : Ecdsa κ) (tx : Transaction) (idx : ℕ) (sig key : Bytes) : Prop :=
  ∃ der t hash, sig = der ++ [t] ∧ rawSignatureHash tx idx t.toUInt32 = .ok hash ∧ E.verify hash der key = .ok ()

theorem legacySig_iff (E : Ecdsa κ) (tx : Transaction) (idx : ℕ) (sig key : Bytes) :
    SigOk (legacyEnv E tx idx) sig key ↔ LegacySig E tx idx sig key := by
  constructor
  · rintro ⟨_, _, der, t, hash, h1, h2, e, h3, h4⟩
    cases h1; cases h2
    exact ⟨der, t, hash, e, h3, h4⟩
  · rintro ⟨der, t, hash, e, h3, h4⟩
    exact ⟨_, _, der, t, hash, rfl, rfl, e, h3, h4⟩

/-- What an unlocking script `u` needs for a coin of the hash `h`, P2PKH or P2SH: it runs, and ends in a branch that is skipped,
or leaves what the kind of the coin asks for. -/
def Spends (E : Ecdsa κ) (tx : Transaction) (idx : ℕ) (k : Locking.Kind) (h u : Bytes) : Prop :=
  ∃ vm, execute (legacyEnv E tx idx) u false fresh = .ok vm ∧
    (branchShouldSkip vm = true ∨ branchShouldSkip vm = false ∧
      match k with
      | .p2pkh => ∃ key sig rest, vm.dstack = key :: sig :: rest ∧ hash160 key = h ∧ LegacySig E tx idx sig key ∧
          (2 ≤ rest.length → ∃ vm', execute (legacyEnv E tx idx) key true ⟨sig :: rest, vm.cstack ++ vm.cstack⟩ = .ok vm')
      | .p2sh => ∃ redeem rest, vm.dstack = redeem :: rest ∧ hash160 redeem = h ∧
          (2 ≤ rest.length → ∃ vm', execute (legacyEnv E tx idx) redeem true ⟨rest, vm.cstack ++ vm.cstack⟩ = .ok vm')
      | _ => False)

/-- **C111.** Exactly when an input that spends a P2PKH or a P2SH coin is accepted. -/
theorem C111_legacy_iff (E : Ecdsa κ) (tx : Transaction) (idx : ℕ) (i : TxIn) (k : Locking.Kind) (h : Bytes)
    (hk : k = .p2pkh ∨ k = .p2sh) (hh : h.length = 20) (hraw : i.rawLockingScript = standardScript k h)
    (hfin : i.finalLockingScript = standardScript k h) (hl : i.rawUnlockingScript.length < 2^61) :
    (verifyInput E idx i tx).1 = .ok () ↔ Spends E tx idx k h i.rawUnlockingScript := by
  have hsz : h.length = hashSize k := by rcases hk with rfl | rfl <;> exact hh
  have hp : parse i.rawLockingScript = .ok ⟨k, h⟩ := by rw [hraw, ← C29_build k h hsz]; exact C29_parse_build k h hsz
  rw [(C111_legacy_input E tx idx i ⟨k, h⟩ hp hk).2.1, hfin]
  rcases hk with rfl | rfl
  · rw [show standardScript .p2pkh h = lockP2PKH h from rfl, C23_iff _ h hh _ (by
      rw [List.length_append]; simp only [lockP2PKH, List.length_append, List.length_cons, List.length_nil, hh]; omega)]
    simp only [legacySig_iff]
    rfl
  · rw [show standardScript .p2sh h = lockP2SH h from rfl, C25_iff _ h hh _ (by
      rw [List.length_append]; simp only [lockP2SH, List.length_append, List.length_cons, List.length_nil, hh]; omega)]
    rfl

/-- inputs that leave the transaction alone are accepted together if each of them is -/
private theorem all_inputs (E : Ecdsa κ) (tx : Transaction) : ∀ l : List (TxIn × ℕ),
    (∀ p ∈ l, ∃ r, verifyInput E p.2 p.1 tx = (r, tx)) →
    ((verifyInputs E l tx).1 = .ok () ↔ ∀ p ∈ l, (verifyInput E p.2 p.1 tx).1 = .ok ())
  | [], _ => by simp [verifyInputs, VMS.lift]
  | p :: l, h => by
    obtain ⟨r, hr⟩ := h p (by simp)
    have ih := all_inputs E tx l fun q hq => h q (by simp [hq])
    rw [List.forall_mem_cons, ← ih]
    have e : verifyInputs E (p :: l) = VMS.bind (verifyInput E p.2 p.1) fun _ => verifyInputs E l := rfl
    rw [e]
    unfold VMS.bind
    rw [hr]
    cases r <;> simp

/-- **C111.** Exactly which received transactions are accepted when all the coins are P2PKH and P2SH coins: those where the script
of each input spends its coin. -/
theorem C111_received_legacy_iff (E : Ecdsa κ) (coins : List TxIn) (txd tx : Transaction) (hs : supplyCoins coins 0 txd = .ok tx)
    (hn : coins.length = txd.inputs.length) (ks : List (Locking.Kind × Bytes)) (hks : coins.map TxIn.rawLockingScript = ks.map fun p => standardScript p.1 p.2)
    (hk : ∀ p ∈ ks, (p.1 = .p2pkh ∨ p.1 = .p2sh) ∧ p.2.length = 20)
    (hl : ∀ i ∈ txd.inputs, i.rawUnlockingScript.length < 2^61) :
    (verify E tx).1 = .ok () ↔ ∀ (idx : ℕ) (i : TxIn) (p : Locking.Kind × Bytes), txd.inputs[idx]? = some i → ks[idx]? = some p →
      Spends E tx idx p.1 p.2 i.rawUnlockingScript := by
  have hg := supplyCoins_get coins 0 txd tx hs
  have hcoin : ∀ (idx : ℕ) (c : TxIn), coins[idx]? = some c → ∃ p : Locking.Kind × Bytes, ks[idx]? = some p ∧ c.rawLockingScript = standardScript p.1 p.2 := by
    intro idx c hc
    have e : (coins.map TxIn.rawLockingScript)[idx]? = some c.rawLockingScript := by rw [List.getElem?_map, hc]; rfl
    rw [hks, List.getElem?_map] at e
    cases hq : ks[idx]? with
    | none => rw [hq] at e; cases e
    | some p => rw [hq] at e; exact ⟨p, rfl, (Option.some.inj e).symm⟩
  -- an input after SetTxIn
  have hin : ∀ (idx : ℕ) (c : TxIn), coins[idx]? = some c → ∃ (i j : TxIn) (p : Locking.Kind × Bytes), txd.inputs[idx]? = some i ∧ tx.inputs[idx]? = some j ∧ ks[idx]? = some p ∧
      j.rawLockingScript = standardScript p.1 p.2 ∧ j.finalLockingScript = standardScript p.1 p.2 ∧
      j.rawUnlockingScript = i.rawUnlockingScript := by
    intro idx c hc
    obtain ⟨i, s, un, h1, h2, h3, h4⟩ := hg.2 idx c hc
    rw [Nat.zero_add] at h1 h4
    obtain ⟨⟨k, h⟩, hp, hraw⟩ := hcoin idx c hc
    obtain ⟨hk', hh⟩ := hk _ (List.mem_of_getElem? hp)
    dsimp only at hk' hh hraw
    have hsz : h.length = hashSize k := by rcases hk' with rfl | rfl <;> exact hh
    have hp' := C29_parse_build k h hsz
    rw [C29_build k h hsz, ← hraw, h2] at hp'
    cases hp'
    refine ⟨i, _, ⟨k, h⟩, h1, h4, hp, C29_build k h hsz, ?_, ?_⟩
    · have : finalLocking ⟨k, h⟩ c.redeemScript = rawLocking ⟨k, h⟩ := by rcases hk' with rfl | rfl <;> rfl
      exact this.trans (C29_build k h hsz)
    · have : un = none := by
        unfold witnessToUnlocking at h3
        rcases hk' with rfl | rfl <;> (cases h3; rfl)
      subst this
      rfl
  have hlen : tx.inputs.length = coins.length := by
    have gen : ∀ (cs : List TxIn) (n : ℕ) (a b : Transaction), supplyCoins cs n a = .ok b → b.inputs.length = a.inputs.length := by
      intro cs
      induction cs with
      | nil => intro n a b h; cases h; rfl
      | cons c cs ih =>
        intro n a b h
        simp only [supplyCoins] at h
        rw [Res.bind_eq_ok] at h
        obtain ⟨a1, h1, h⟩ := h
        rw [ih _ _ _ h]
        unfold setTxIn at h1
        simp only [Res.bind_eq_ok] at h1
        obtain ⟨_, _, _, _, _, _, h1⟩ := h1
        cases h1
        simp [putInput]
    rw [gen coins 0 txd tx hs, hn]
  have hall : ∀ (idx : ℕ) (j : TxIn), tx.inputs[idx]? = some j → ∃ (i : TxIn) (p : Locking.Kind × Bytes), txd.inputs[idx]? = some i ∧ ks[idx]? = some p ∧
      j.rawLockingScript = standardScript p.1 p.2 ∧ j.finalLockingScript = standardScript p.1 p.2 ∧
      j.rawUnlockingScript = i.rawUnlockingScript := by
    intro idx j hj
    have hlt : idx < coins.length := by
      rw [← hlen]
      by_contra hc
      rw [List.getElem?_eq_none (by omega)] at hj
      cases hj
    obtain ⟨i, j', p, e1, e2, e3, e4⟩ := hin idx _ (List.getElem?_eq_getElem hlt)
    rw [hj] at e2; cases e2
    exact ⟨i, p, e1, e3, e4⟩
  unfold Tx.verify
  rw [all_inputs E tx]
  · constructor
    · intro h idx i p hi hp
      have hlt : idx < tx.inputs.length := by
        rw [hlen, hn]
        by_contra hc
        rw [List.getElem?_eq_none (by omega)] at hi
        cases hi
      have hj := List.getElem?_eq_getElem hlt
      obtain ⟨i', p', e1, e2, e3, e4, e5⟩ := hall idx _ hj
      rw [hi] at e1; rw [hp] at e2; cases e1; cases e2
      obtain ⟨hk', hh⟩ := hk _ (List.mem_of_getElem? hp)
      have := h (tx.inputs[idx], idx) (by rw [List.mem_zipIdx_iff_getElem?]; exact hj)
      rw [C111_legacy_iff E tx idx _ p.1 p.2 hk' hh e3 e4 (by rw [e5]; exact hl i (List.mem_of_getElem? hi)), e5] at this
      exact this
    · rintro h ⟨j, idx⟩ hm
      rw [List.mem_zipIdx_iff_getElem?] at hm
      obtain ⟨i, p, e1, e2, e3, e4, e5⟩ := hall idx j hm
      obtain ⟨hk', hh⟩ := hk _ (List.mem_of_getElem? e2)
      rw [C111_legacy_iff E tx idx j p.1 p.2 hk' hh e3 e4 (by rw [e5]; exact hl i (List.mem_of_getElem? e1)), e5]
      exact h idx i p e1 e2
  · rintro ⟨j, idx⟩ hm
    rw [List.mem_zipIdx_iff_getElem?] at hm
    obtain ⟨i, p, e1, e2, e3, e4, e5⟩ := hall idx j hm
    obtain ⟨hk', hh⟩ := hk _ (List.mem_of_getElem? e2)
    have hsz : p.2.length = hashSize p.1 := by rcases hk' with q | q <;> rw [q] <;> exact hh
    exact (C111_legacy_input E tx idx j ⟨p.1, p.2⟩ (by rw [e3, ← C29_build _ _ hsz]; exact C29_parse_build _ _ hsz) hk').1

end

/-- The signature of key 7 for spending the P2PKH coin. -/
def spendSigLegacy : Res Bytes :=
  (@supplyCoins modHashes [spendCoin .p2pkh] 0 (spendTx [] [])).bind fun tx =>
    (@Tx.rawSignatureHash modHashes tx 0 1).bind fun p => .ok (p ++ [7, 1])

/-- The P2PKH coin is spent by a signature and the key, also under an open conditional, and not by those of another key. -/
example : spendSigLegacy.bind (fun s => spendVerdict .p2pkh [] (addData (addData Buffer.new s) (toyEcdsa.pub 7 true)).data) = .ok () ∧
    spendSigLegacy.bind (fun s => spendVerdict .p2pkh [] ([0x51, 0x63] ++ (addData (addData Buffer.new s) (toyEcdsa.pub 7 true)).data)) = .ok () ∧
    spendSigLegacy.bind (fun s => spendVerdict .p2pkh [] (addData (addData Buffer.new s) (toyEcdsa.pub 8 true)).data) = .err Tx.errVerifyFailed := by
  refine ⟨by decide +kernel, by decide +kernel, by decide +kernel⟩

end Toku.Props
