import Verif.Props.TxWire
import Verif.Proof.VMSKeep
/-
Property C111: what it takes to spend an output, for every locking script and for transactions received from
others.
-/
namespace Toku.Props
open Toku Toku.Spec Toku.VM Toku.Script Toku.Locking

/-- The unlocking script `OP_0 OP_IF … OP_IF` with `n` times OP_IF. -/
def openIfs (n : ℕ) : Bytes := 0x00 :: List.replicate n 0x63

private def ifTokens (n : ℕ) : List Token := ⟨0x00, []⟩ :: List.replicate n ⟨0x63, []⟩

private theorem openIfs_enc (n : ℕ) : openIfs n = encTokens (ifTokens n) := by
  have h : ∀ n, List.flatMap Token.enc (List.replicate n ⟨0x63, []⟩) = List.replicate n 0x63 := by
    intro n
    induction n with
    | zero => rfl
    | succ n ih => rw [List.replicate_succ, List.replicate_succ, List.flatMap_cons, ih]; rfl
  unfold openIfs ifTokens encTokens
  rw [List.flatMap_cons, h]
  rfl

private theorem ifTokens_valid (n : ℕ) : ∀ t ∈ ifTokens n, t.Valid := by
  intro t ht
  rcases List.mem_cons.mp ht with rfl | ht
  · exact ⟨by decide, by decide⟩
  · rw [List.eq_of_mem_replicate ht]; exact ⟨by decide, by decide⟩

private theorem ifs_skip (env : Env) (c : Cond) (hc : c ≠ .yes) (cs : List Cond) (n : ℕ) :
    execAll env (List.replicate n ⟨0x63, []⟩) ⟨[], c :: cs⟩ = .ok ⟨[], List.replicate n .skip ++ c :: cs⟩ := by
  induction n generalizing c cs with
  | zero => rfl
  | succ n ih =>
    rw [List.replicate_succ]
    simp only [execAll]
    rw [exec_if]
    have : opIf false ⟨[], c :: cs⟩ = .ok ⟨[], .skip :: c :: cs⟩ := by
      unfold opIf branchShouldSkip
      simp [hc]
    rw [this, Res.ok_bind, ih _ (by decide)]
    rw [List.replicate_succ', List.append_assoc]
    rfl

/-- a token of a skipped script: the top of the conditional stack stays `skip` while enough of them are there -/
private theorem skip_tokens (env : Env) (ts : List Token) (hv : ∀ t ∈ ts, t.Valid) :
    ∀ (n : ℕ) (cs : List Cond), (ts.filter isEndIf).length < n →
      ∃ m cs', execAll env ts ⟨[], List.replicate n .skip ++ cs⟩ = .ok ⟨[], List.replicate m .skip ++ cs'⟩ := by
  induction ts with
  | nil => intro n cs _; exact ⟨n, cs, rfl⟩
  | cons t ts ih =>
    intro n cs hn
    obtain ⟨n, rfl⟩ : ∃ k, n = k + 1 := ⟨n - 1, by omega⟩
    have ih := ih fun t h => hv t (by simp [h])
    have htv := hv t (by simp)
    have hsk : branchShouldSkip ⟨[], List.replicate (n + 1) .skip ++ cs⟩ = true := rfl
    simp only [execAll]
    by_cases hc : IsCond t
    · rcases (isCond_iff t).mp hc with h | h | h
      · have he : exec env (instrOf t) ⟨[], List.replicate (n + 1) .skip ++ cs⟩ = .ok ⟨[], List.replicate (n + 2) .skip ++ cs⟩ := by
          obtain ⟨op, d⟩ := t
          simp only [isIf, Bool.or_eq_true, decide_eq_true_eq] at h
          rcases h with rfl | rfl
          · rw [exec_if]; rfl
          · rw [exec_notif]; rfl
        rw [he, Res.ok_bind]
        apply ih
        have := List.length_filter_le isEndIf ts
        have h2 : ((t :: ts).filter isEndIf).length ≥ (ts.filter isEndIf).length := by
          rw [List.filter_cons]; split <;> simp
        omega
      · have he : exec env (instrOf t) ⟨[], List.replicate (n + 1) .skip ++ cs⟩ = .ok ⟨[], List.replicate (n + 1) .skip ++ cs⟩ := by
          obtain ⟨op, d⟩ := t
          simp only [isElse, decide_eq_true_eq] at h
          subst h
          rw [exec_else]; rfl
        rw [he, Res.ok_bind]
        apply ih
        have h2 : ((t :: ts).filter isEndIf).length ≥ (ts.filter isEndIf).length := by
          rw [List.filter_cons]; split <;> simp
        omega
      · have he : exec env (instrOf t) ⟨[], List.replicate (n + 1) .skip ++ cs⟩ = .ok ⟨[], List.replicate n .skip ++ cs⟩ := by
          obtain ⟨op, d⟩ := t
          simp only [isEndIf, decide_eq_true_eq] at h
          subst h
          rw [exec_endif]; rfl
        rw [he, Res.ok_bind]
        apply ih
        rw [List.filter_cons, if_pos h, List.length_cons] at hn
        omega
    · rw [exec_skip env htv hc _ hsk, Res.ok_bind]
      apply ih
      have h2 : ((t :: ts).filter isEndIf).length ≥ (ts.filter isEndIf).length := by
        rw [List.filter_cons]; split <;> simp
      omega

private theorem openIfs_run (env : Env) (n : ℕ) :
    execAll env (ifTokens (n + 1)) ⟨[], []⟩ = .ok ⟨[], List.replicate n .skip ++ [.no]⟩ := by
  unfold ifTokens
  rw [List.replicate_succ]
  simp only [execAll]
  rw [show exec env (instrOf ⟨0x00, []⟩) ⟨[], []⟩ = .ok ⟨[[]], []⟩ from rfl, Res.ok_bind]
  rw [show exec env (instrOf ⟨0x63, []⟩) ⟨[[]], []⟩ = .ok ⟨[], [.no]⟩ from rfl, Res.ok_bind]
  exact ifs_skip env .no (by decide) [] n

private theorem openIfs_again (env : Env) (n m : ℕ) :
    execAll env (ifTokens n) ⟨[], List.replicate m .skip ++ [.no]⟩ = .ok ⟨[], List.replicate (n + m) .skip ++ [.no]⟩ := by
  unfold ifTokens
  simp only [execAll]
  have h0 : exec env (instrOf ⟨0x00, []⟩) ⟨[], List.replicate m .skip ++ [.no]⟩ = .ok ⟨[], List.replicate m .skip ++ [.no]⟩ := by
    apply exec_skip env ⟨by decide, by decide⟩ (by decide)
    cases m <;> rfl
  rw [h0, Res.ok_bind]
  cases m with
  | zero => exact ifs_skip env .no (by decide) [] n
  | succ m =>
    rw [List.replicate_succ, List.cons_append, ifs_skip env .skip (by decide)]
    congr 2
    rw [← List.cons_append, ← List.replicate_succ, ← List.append_assoc, ← List.replicate_add]

/-- **C111, negation.** Every locking script that is a sequence of instructions is unlocked by `OP_0 OP_IF … OP_IF`, with more
OP_IF than the locking script has OP_ENDIF: with every oracle, without a key or a signature. -/
theorem C111_anyone_can_spend (env : Env) (tl : List Token) (hv : ∀ t ∈ tl, t.Valid) (n : ℕ) (hn : (tl.filter isEndIf).length < n)
    (hl : (openIfs n ++ encTokens tl).length < 2^62) :
    ∃ vm', verify env (openIfs n) (encTokens tl) fresh = .ok vm' := by
  obtain ⟨k, rfl⟩ : ∃ k, n = k + 1 := ⟨n - 1, by omega⟩
  have hvi := ifTokens_valid (k + 1)
  rw [openIfs_enc] at hl ⊢
  have hl1 : (encTokens (ifTokens (k + 1))).length < 2^62 := by rw [List.length_append] at hl; omega
  have hl2 : (encTokens tl).length < 2^62 := by rw [List.length_append] at hl; omega
  obtain ⟨m, cs, h⟩ := skip_tokens env tl hv (k + 1 + k) [.no] (by omega)
  refine ⟨⟨[], List.replicate m .skip ++ cs⟩, ?_⟩
  unfold verify
  rw [execute_false, run_tokens env hvi hl1, show fresh = ⟨[], []⟩ from rfl, openIfs_run, Res.ok_bind]
  have h2 : execute env (encTokens (ifTokens (k + 1)) ++ encTokens tl) true ⟨[], List.replicate k .skip ++ [.no]⟩ =
      .ok ⟨[], List.replicate m .skip ++ cs⟩ := by
    rw [execute_true]
    refine ⟨_, ?_, Or.inl ⟨rfl, rfl⟩⟩
    rw [run_append_ok hvi hl]
    exact ⟨_, openIfs_again env (k + 1) k, by rw [run_tokens env hv hl2]; exact h⟩
  dsimp only [reset]
  rw [h2, Res.ok_bind, if_neg (by simp)]

/-- **C111.** Exactly which outputs can be spent at all: there is an unlocking script if and only if the locking script is a
sequence of instructions, whatever these are and whatever the oracle says of any signature. -/
theorem C111_spendable_iff (env : Env) (l : Bytes) (hl : l.length < 2^60) :
    (∃ u vm', (u ++ l).length < 2^62 ∧ verify env u l fresh = .ok vm') ↔ ∃ is, allInstructions l = .ok is := by
  constructor
  · rintro ⟨u, vm', hul, h⟩
    unfold verify at h
    rw [Res.bind_eq_ok] at h
    obtain ⟨vm1, hu, h⟩ := h
    rw [execute_false] at hu
    obtain ⟨ts, hv, rfl, _⟩ := run_ok (by rw [List.length_append] at hul; omega) hu
    dsimp only at h
    rw [Res.bind_eq_ok] at h
    obtain ⟨vm2, h, _⟩ := h
    rw [execute_true] at h
    obtain ⟨vm3, h, _⟩ := h
    rw [run_append_ok hv hul] at h
    obtain ⟨vm4, _, h⟩ := h
    obtain ⟨tl, hvl, rfl, _⟩ := run_ok (by omega) h
    rcases allInstructions_tokens hvl (Or.inl rfl) (by simpa using (by omega : (encTokens tl).length < 2^62)) with ⟨_, h'⟩ | ⟨hst, _⟩
    · rw [List.append_nil] at h'; exact ⟨_, h'⟩
    · exact absurd hst not_stuck_nil
  · rintro ⟨is, hi⟩
    obtain ⟨tl, tail, hvl, rfl, ht⟩ := tokens_exist l
    rcases allInstructions_tokens hvl ht (by omega) with ⟨rfl, _⟩ | ⟨_, e, h'⟩
    · rw [List.append_nil] at hl ⊢
      have h1 := List.length_filter_le isEndIf tl
      have h2 := encTokens_length_ge tl
      have hlen : (openIfs (tl.length + 1) ++ encTokens tl).length < 2^62 := by
        simp [openIfs]; omega
      obtain ⟨vm', h⟩ := C111_anyone_can_spend env tl hvl (tl.length + 1) (by omega) hlen
      exact ⟨_, vm', hlen, h⟩
    · rw [hi] at h'; cases h'

/-- **C28, negation.** Exactly when an output beginning with OP_RETURN can be spent: if and only if what follows is a sequence
of instructions. -/
theorem C28_spendable_iff (env : Env) (rest : Bytes) (hl : rest.length < 2^59) :
    (∃ u vm', (u ++ 0x6a :: rest).length < 2^62 ∧ verify env u (0x6a :: rest) fresh = .ok vm') ↔
      ∃ is, allInstructions rest = .ok is := by
  rw [C111_spendable_iff env _ (by simp; omega)]
  obtain ⟨tr, tail, hvr, rfl, htr⟩ := tokens_exist rest
  have hvr' : ∀ t ∈ (⟨0x6a, []⟩ : Token) :: tr, t.Valid := by
    intro t ht
    rcases List.mem_cons.mp ht with rfl | h
    · exact ⟨by decide, by decide⟩
    · exact hvr t h
  have he : (0x6a :: (encTokens tr ++ tail) : Bytes) = encTokens (⟨0x6a, []⟩ :: tr) ++ tail := rfl
  rw [he]
  have hl' : (encTokens (⟨0x6a, []⟩ :: tr) ++ tail).length < 2^62 := by rw [← he, List.length_cons]; omega
  rcases allInstructions_tokens hvr htr (by omega) with ⟨rfl, h1⟩ | ⟨hst, e, h1⟩
  · rcases allInstructions_tokens hvr' (Or.inl rfl) hl' with ⟨_, h2⟩ | ⟨h, _⟩
    · rw [h1, h2]; exact ⟨fun _ => ⟨_, rfl⟩, fun _ => ⟨_, rfl⟩⟩
    · exact absurd h not_stuck_nil
  · rcases allInstructions_tokens hvr' (Or.inr hst) hl' with ⟨rfl, _⟩ | ⟨_, e2, h2⟩
    · exact absurd hst not_stuck_nil
    · rw [h1, h2]
      constructor <;> (rintro ⟨_, h⟩; cases h)

/-- `RETURN`, a script with an ENDIF of its own, and one that is not a sequence of instructions. -/
example : (verify toyEnv (openIfs 1) [0x6a, 0x01, 0x00] fresh).bind (fun _ => .ok ()) = .ok () ∧
    (verify toyEnv (openIfs 2) [0x63, 0x00, 0x67, 0xac, 0x68, 0x00] fresh).bind (fun _ => .ok ()) = .ok () ∧
    allInstructions [0x05, 0x01] = .err errOpRead := by
  refine ⟨by decide +kernel, by decide +kernel, by decide +kernel⟩

/-! ### transactions -/

section
open Toku.Tx
variable {κ : Type} [Hashes]

/-- The two are the same but for the digest caches. -/
def SameTx (a b : Transaction) : Prop :=
  a.version = b.version ∧ a.lockTime = b.lockTime ∧ a.inputs = b.inputs ∧ a.outputs = b.outputs

private theorem hasher_keeps (E : Ecdsa κ) (idx : ℕ) (v : Version) (tx0 : Transaction) (t : UInt8) :
    VMS.Keeps (fun tx => SameTx tx tx0) ((engineEnv E idx v).hasher t) := by
  intro tx h
  change SameTx (sigHashFn idx v t tx).2 tx0
  unfold sigHashFn
  cases v with
  | base => exact h
  | witnessV0 =>
    dsimp only
    unfold witnessSignatureHash
    cases tx.inputs[idx]? with
    | none => exact h
    | some i => exact h

private theorem verifyInput_keeps (E : Ecdsa κ) (idx : ℕ) (i : TxIn) (tx0 : Transaction) :
    VMS.Keeps (fun tx => SameTx tx tx0) (verifyInput E idx i) := by
  unfold verifyInput
  refine VMS.Keeps.bind (VMS.Keeps.lift _) fun s => ?_
  intro tx h
  have := VMS.verify_keeps (hasher_keeps E idx (scriptVersion s) tx0) i.rawUnlockingScript i.finalLockingScript fresh tx h
  revert this
  dsimp only
  cases VMS.verify (engineEnv E idx (scriptVersion s)) i.rawUnlockingScript i.finalLockingScript fresh tx with
  | mk r tx1 => cases r <;> exact id

private theorem verifyInputs_keeps (E : Ecdsa κ) (tx0 : Transaction) (l : List (TxIn × ℕ)) :
    VMS.Keeps (fun tx => SameTx tx tx0) (verifyInputs E l) := by
  induction l with
  | nil => exact VMS.Keeps.lift _
  | cons p l ih => exact VMS.Keeps.bind (verifyInput_keeps E p.2 p.1 tx0) fun _ => ih

/-- **C111.** Verify changes nothing of the transaction but its digest caches, whatever it says. -/
theorem C111_verify_keeps (E : Ecdsa κ) (tx : Transaction) : SameTx (verify E tx).2 tx :=
  verifyInputs_keeps E tx _ tx ⟨rfl, rfl, rfl, rfl⟩

/-- If Verify accepts a transaction then each of its inputs was accepted, in some state of the digest caches. -/
theorem each_same {E : Ecdsa κ} {tx : Transaction} (h : (verify E tx).1 = .ok ()) (idx : ℕ) (i : TxIn)
    (hi : tx.inputs[idx]? = some i) : ∃ tx1, SameTx tx1 tx ∧ (verifyInput E idx i tx1).1 = .ok () := by
  have gen : ∀ (l : List (TxIn × ℕ)) (tx1 : Transaction), SameTx tx1 tx → (verifyInputs E l tx1).1 = .ok () → ∀ p ∈ l,
      ∃ tx2, SameTx tx2 tx ∧ (verifyInput E p.2 p.1 tx2).1 = .ok () := by
    intro l
    induction l with
    | nil => intro _ _ _ p hp; cases hp
    | cons q l ih =>
      intro tx1 hs h p hp
      have hk := verifyInput_keeps E q.2 q.1 tx tx1 hs
      unfold verifyInputs at h
      change (VMS.bind _ _ tx1).1 = _ at h
      unfold VMS.bind at h
      cases hq : verifyInput E q.2 q.1 tx1 with
      | mk r tx2 =>
        rw [hq] at h hk
        cases r with
        | err e => cases h
        | panic => cases h
        | ok u =>
          rcases List.mem_cons.mp hp with rfl | hp
          · exact ⟨tx1, hs, by rw [hq]⟩
          · exact ih tx2 hk h p hp
  exact gen _ tx ⟨rfl, rfl, rfl, rfl⟩ h (i, idx) (by rw [List.mem_zipIdx_iff_getElem?]; exact hi)

/-- If each input is accepted in every state then Verify accepts. -/
private theorem verify_of_each {E : Ecdsa κ} {tx : Transaction}
    (h : ∀ idx i, tx.inputs[idx]? = some i → ∀ tx1, ∃ tx2, verifyInput E idx i tx1 = (.ok (), tx2)) : (verify E tx).1 = .ok () := by
  have gen : ∀ (l : List (TxIn × ℕ)), (∀ p ∈ l, ∀ tx1, ∃ tx2, verifyInput E p.2 p.1 tx1 = (.ok (), tx2)) →
      ∀ tx1, (verifyInputs E l tx1).1 = .ok () := by
    intro l
    induction l with
    | nil => intro _ _; rfl
    | cons q l ih =>
      intro hl tx1
      obtain ⟨tx2, e⟩ := hl q (by simp) tx1
      unfold verifyInputs
      change (VMS.bind _ _ tx1).1 = _
      unfold VMS.bind
      rw [e]
      exact ih (fun p hp => hl p (by simp [hp])) tx2
  apply gen
  rintro ⟨i, idx⟩ hm
  rw [List.mem_zipIdx_iff_getElem?] at hm
  exact h idx i hm

/-- The kinds of outputs whose unlocking script comes from the script of the input. -/
def ScriptSpent (k : Locking.Kind) : Prop := k = .p2pkh ∨ k = .p2sh ∨ k = .p2wsh

private theorem final_standard {k : Locking.Kind} {h : Bytes} (hh : h.length = hashSize k) (hk : ScriptSpent k) (r : Option Bytes) :
    ∃ tl : List Token, (∀ t ∈ tl, t.Valid) ∧ tl.filter isEndIf = [] ∧ finalLocking ⟨k, h⟩ r = encTokens tl ∧
      (encTokens tl).length ≤ 25 := by
  have pk : ∀ x : Bytes, x.length = 20 → ∃ tl : List Token, (∀ t ∈ tl, t.Valid) ∧ tl.filter isEndIf = [] ∧
      standardScript .p2pkh x = encTokens tl ∧ (encTokens tl).length ≤ 25 := by
    intro x hx
    refine ⟨_, p2pkh_valid hx, ?_, p2pkh_enc x, ?_⟩
    · simp [p2pkhTokens, isEndIf]
    · rw [← p2pkh_enc]; simp [lockP2PKH, hx]
  have sh : ∀ x : Bytes, x.length = 20 → ∃ tl : List Token, (∀ t ∈ tl, t.Valid) ∧ tl.filter isEndIf = [] ∧
      standardScript .p2sh x = encTokens tl ∧ (encTokens tl).length ≤ 25 := by
    intro x hx
    refine ⟨_, p2sh_valid hx, ?_, p2sh_enc x, ?_⟩
    · simp [p2shTokens, isEndIf]
    · rw [← p2sh_enc]; simp [lockP2SH, hx]
  rcases hk with rfl | rfl | rfl
  · have := pk h hh
    rwa [← C29_build .p2pkh h hh] at this
  · have := sh h hh
    rwa [← C29_build .p2sh h hh] at this
  · have := sh (hash160 (r.getD [])) (hash160_length _)
    rwa [← C29_build .p2sh _ (hash160_length _)] at this

/-- **C111, negation.** Whoever knows no key can spend every P2PKH, P2SH and P2WSH coin: take any transaction whose inputs have
the unlocking script `OP_0 OP_IF` and no witness. Supplied with the coins it claims to spend, of these kinds and in any number,
Verify accepts it, with every signature scheme. -/
theorem C111_forged (E : Ecdsa κ) (coins : List TxIn) (tx : Transaction) (hn : coins.length = tx.inputs.length)
    (hin : ∀ i ∈ tx.inputs, i.rawUnlockingScript = openIfs 1 ∧ i.witness = [])
    (hc : ∀ c ∈ coins, ∃ k h, ScriptSpent k ∧ h.length = hashSize k ∧ c.rawLockingScript = standardScript k h) :
    ∃ tx', supplyCoins coins 0 tx = .ok tx' ∧ (verify E tx').1 = .ok () := by
  -- an input that passes
  let Good : TxIn → Prop := fun i => ∃ k h r, ScriptSpent k ∧ h.length = hashSize k ∧ i.rawLockingScript = standardScript k h ∧
    i.finalLockingScript = finalLocking ⟨k, h⟩ r ∧ i.rawUnlockingScript = openIfs 1
  have main : ∀ (todo : List TxIn) (done rest : List TxIn) (tx : Transaction), todo.length = rest.length →
      tx.inputs = done ++ rest → (∀ i ∈ done, Good i) → (∀ i ∈ rest, i.rawUnlockingScript = openIfs 1 ∧ i.witness = []) →
      (∀ c ∈ todo, ∃ k h, ScriptSpent k ∧ h.length = hashSize k ∧ c.rawLockingScript = standardScript k h) →
      ∃ tx', supplyCoins todo done.length tx = .ok tx' ∧ ∀ i ∈ tx'.inputs, Good i := by
    intro todo
    induction todo with
    | nil =>
      intro done rest tx hlen htx hd _ _
      obtain rfl : rest = [] := by rw [← List.length_eq_zero_iff]; exact hlen.symm
      rw [List.append_nil] at htx
      exact ⟨tx, rfl, by rw [htx]; exact hd⟩
    | cons c todo ih =>
      intro done rest tx hlen htx hd hr hcs
      cases rest with
      | nil => simp at hlen
      | cons i rest =>
        obtain ⟨k, h, hk, hh, hs⟩ := hcs c (by simp)
        obtain ⟨hu, hw⟩ := hr i (by simp)
        have hp := C29_parse_build k h hh
        rw [C29_build k h hh, ← hs] at hp
        have hun : witnessToUnlocking ⟨k, h⟩ i.witness = .ok none := by
          rw [hw]
          rcases hk with rfl | rfl | rfl <;> rfl
        let j : TxIn := { i with
          value := c.value, redeemScript := c.redeemScript, witnessScriptCode := witnessScriptCode ⟨k, h⟩ c.redeemScript,
          rawLockingScript := rawLocking ⟨k, h⟩, finalLockingScript := finalLocking ⟨k, h⟩ c.redeemScript }
        have hset : setTxIn tx done.length c.value c.rawLockingScript c.redeemScript = .ok (putInput tx done.length j) := by
          unfold setTxIn
          have hg : tx.inputs[done.length]? = some i := by
            rw [htx, List.getElem?_append_right (le_refl _)]; simp
          rw [hg, show Res.ofIdx (some i) = .ok i from rfl, Res.ok_bind, hp, Res.ok_bind, hun, Res.ok_bind]
          rfl
        have hj : Good j := ⟨k, h, c.redeemScript, hk, hh, C29_build k h hh, rfl, hu⟩
        simp only [supplyCoins]
        rw [hset, Res.ok_bind]
        have := ih (done ++ [j]) rest (putInput tx done.length j) (by simpa using hlen)
          (by unfold putInput; simp only; rw [htx]; simp)
          (by
            intro x hx
            rcases List.mem_append.mp hx with q | q
            · exact hd x q
            · rw [List.mem_singleton.mp q]; exact hj)
          (fun x hx => hr x (by simp [hx])) (fun x hx => hcs x (by simp [hx]))
        rwa [List.length_append, List.length_singleton] at this
  obtain ⟨tx', h1, h2⟩ := main coins [] tx.inputs tx hn rfl (by simp) hin hc
  refine ⟨tx', h1, verify_of_each ?_⟩
  intro idx i hi tx1
  obtain ⟨k, h, r, hk, hh, hraw, hfin, hu⟩ := h2 i (List.mem_of_getElem? hi)
  have hp := C29_parse_build k h hh
  rw [C29_build k h hh, ← hraw] at hp
  obtain ⟨tl, hv, hne, hf, hlen⟩ := final_standard hh hk r
  obtain ⟨vm, hvm⟩ := C111_anyone_can_spend (noHashEnv E) tl hv 1 (by rw [hne]; simp) (by
    rw [List.length_append]
    have : (openIfs 1).length = 2 := rfl
    omega)
  exact verifyInput_ok hp (by rw [hu, hfin, hf]; exact hvm) tx1

/-- **C111, negation.** From the wire: the bytes of any transaction without witness data whose inputs have the unlocking script
`OP_0 OP_IF` parse, and after SetTxIn with the coins Verify accepts. -/
theorem C111_forged_wire (E : Ecdsa κ) (coins : List TxIn) (tx : Transaction) (hn : coins.length = tx.inputs.length)
    (hin : ∀ i ∈ tx.inputs, scriptSig i = openIfs 1)
    (hc : ∀ c ∈ coins, ∃ k h, ScriptSpent k ∧ h.length = hashSize k ∧ c.rawLockingScript = standardScript k h)
    (henc : Encodable tx) (hs : (wireLegacy tx).length < 2^43) :
    ∃ txd tx', deserializeNoWitness Tx.new (wireLegacy tx) = .ok (txd, []) ∧ txd.outputs = tx.outputs ∧
      supplyCoins coins 0 txd = .ok tx' ∧ (verify E tx').1 = .ok () := by
  have hd := deserializeNoWitness_wire henc hs
  obtain ⟨tx', h1, h2⟩ := C111_forged E coins { Tx.new with
      version := tx.version, lockTime := tx.lockTime, inputs := tx.inputs.map parsedIn, outputs := tx.outputs }
    (by simpa using hn) (by
      intro i hi
      obtain ⟨i0, h0, rfl⟩ := List.mem_map.mp hi
      exact ⟨hin i0 h0, rfl⟩) hc
  exact ⟨_, tx', hd, rfl, h1, h2⟩

/-- What AddData pushes (C16): the zero byte becomes the empty string. -/
def pushed (w : Bytes) : Bytes := if w = [0x00] then [] else w

omit [Hashes] in
private theorem pushed_value {w : Bytes} (h : w ≠ [0x81]) : pushValue (pushToken w) = pushed w := by
  unfold pushed
  split
  · rename_i e; subst e; rfl
  · rename_i e; exact pushToken_value e h

omit [Hashes] in
private theorem stuck_81 (rest : Bytes) : Stuck ((pushToken [0x81]).enc ++ rest) :=
  ⟨0x4f, rest, rfl, Or.inl (by decide)⟩

/-- what Verify does for a P2PKH script and the unlocking script of two AddData -/
theorem two_pushes (env : Env) (hasher : UInt8 → Res Bytes) (verifier : Bytes → Bytes → Bytes → Res Unit)
    (e1 : env.sigHasher = some hasher) (e2 : env.sigVerifier = some verifier) (h : Bytes) (hh : h.length = 20) (w0 w1 : Bytes)
    (l0 : w0.length < 2^32) (l1 : w1.length < 2^32) :
    ((w0 = [0x81] ∨ w1 = [0x81]) ∧ ∃ e, VM.verify env (addData (addData Buffer.new w0) w1).data (lockP2PKH h) fresh = .err e) ∨
    (w0 ≠ [0x81] ∧ w1 ≠ [0x81] ∧ VM.verify env (addData (addData Buffer.new w0) w1).data (lockP2PKH h) fresh =
      if env.hash160 (pushed w1) = h then
        (sigValue hasher verifier (pushed w0) (pushed w1) >>= fun v => if v = true then .ok ⟨[], []⟩ else .err errExec)
      else .err errExec) := by
  have hdata : (addData (addData Buffer.new w0) w1).data = (pushToken w0).enc ++ (pushToken w1).enc := by
    rw [addData_data _ _ l1, addData_data _ _ l0]
    simp [Buffer.new]
  have a := pushToken_enc_le w0
  have b := pushToken_enc_le w1
  have hlk : (lockP2PKH h).length = 25 := by simp [lockP2PKH, hh]
  rw [hdata]
  by_cases q0 : w0 = [0x81]
  · left
    subst q0
    refine ⟨.inl rfl, ?_⟩
    obtain ⟨e, he⟩ := run_stuck env (ts := []) (by simp) (stuck_81 (pushToken w1).enc) (by
      simp only [encTokens, List.flatMap_nil, List.nil_append, List.length_append]; omega) fresh
    refine ⟨e, ?_⟩
    unfold VM.verify
    rw [execute_false]
    rw [show encTokens [] = [] from rfl, List.nil_append] at he
    rw [he]
    rfl
  by_cases q1 : w1 = [0x81]
  · left
    subst q1
    refine ⟨.inr rfl, ?_⟩
    have st := stuck_81 []
    rw [List.append_nil] at st
    have hp := pushToken_isPush l0 q0
    obtain ⟨e, he⟩ := run_stuck env (ts := [pushToken w0]) (by simpa using hp.1) st (by
      simp only [encTokens, List.flatMap_cons, List.flatMap_nil, List.append_nil, List.length_append]; omega) fresh
    refine ⟨e, ?_⟩
    have hx := execAll_pushes env (ts := [pushToken w0]) (by simpa using hp) []
    unfold VM.verify
    rw [execute_false]
    have hen : encTokens [pushToken w0] = (pushToken w0).enc := by simp [encTokens]
    rw [hen, show fresh = ⟨[], []⟩ from rfl, hx] at he
    rw [show fresh = ⟨[], []⟩ from rfl, he]
    rfl
  · right
    refine ⟨q0, q1, ?_⟩
    have hen : encTokens ([] ++ [pushToken w0, pushToken w1]) = (pushToken w0).enc ++ (pushToken w1).enc := by simp [encTokens]
    have hp : ∀ t ∈ [] ++ [pushToken w0, pushToken w1], IsPush t := by
      intro t ht
      simp only [List.nil_append, List.mem_cons, List.not_mem_nil, or_false] at ht
      rcases ht with rfl | rfl
      · exact pushToken_isPush l0 q0
      · exact pushToken_isPush l1 q1
    have := C23_pushes env hasher verifier e1 e2 h hh [] (pushToken w0) (pushToken w1) hp (by
      rw [hen, List.length_append, List.length_append]; omega)
    rw [hen, pushed_value q0, pushed_value q1] at this
    rw [this]
    rfl

theorem updateCaches_idem (tx : Transaction) (t : UInt32) : updateCaches (updateCaches tx t) t = updateCaches tx t := by
  unfold updateCaches cachePrevouts cacheSequence cacheOutputs
  congr 1 <;> dsimp only <;> split_ifs <;> rfl

theorem input_of_run {E : Ecdsa κ} {idx : ℕ} {i : TxIn} {s : LockScript} (hp : parse i.rawLockingScript = .ok s)
    {tx tx' : Transaction} {r : Res State}
    (e : VMS.verify (engineEnv E idx (scriptVersion s)) i.rawUnlockingScript i.finalLockingScript fresh tx = (r, tx')) :
    ((verifyInput E idx i tx).1 = .ok () ↔ ∃ vm, r = .ok vm) ∧ (verifyInput E idx i tx).2 = tx' := by
  unfold verifyInput
  rw [hp]
  change ((match VMS.verify (engineEnv E idx (scriptVersion s)) i.rawUnlockingScript i.finalLockingScript VM.fresh tx with
    | (.ok _, tx) => ((.ok (), tx) : Res Unit × Transaction)
    | (.err _, tx) => (.err errVerifyFailed, tx)
    | (.panic, tx) => (.panic, tx)).1 = _ ↔ _) ∧
    (match VMS.verify (engineEnv E idx (scriptVersion s)) i.rawUnlockingScript i.finalLockingScript VM.fresh tx with
    | (.ok _, tx) => ((.ok (), tx) : Res Unit × Transaction)
    | (.err _, tx) => (.err errVerifyFailed, tx)
    | (.panic, tx) => (.panic, tx)).2 = _
  rw [e]
  cases r <;> simp

/-- The run of an input that spends a P2WPKH coin: when it is accepted, and the state it leaves. -/
theorem p2wpkh_run (E : Ecdsa κ) (hE : ∀ a b c, E.verify a b c ≠ .panic) (tx : Transaction) (idx : ℕ) (i : TxIn)
    (hi : tx.inputs[idx]? = some i) (h : Bytes) (hp : parse i.rawLockingScript = .ok ⟨.p2wpkh, h⟩) (hh : h.length = 20)
    (hf : i.finalLockingScript = lockP2PKH h) (w0 w1 : Bytes) (l0 : w0.length < 2^32) (l1 : w1.length < 2^32)
    (hu : i.rawUnlockingScript = (addData (addData Buffer.new w0) w1).data) :
    ((verifyInput E idx i tx).1 = .ok () ↔ w0 ≠ [0x81] ∧ w1 ≠ [0x81] ∧ hash160 (pushed w1) = h ∧
      ∃ der t hash tx2, pushed w0 = der ++ [t] ∧ witnessSignatureHash tx idx t.toUInt32 = .ok (hash, tx2) ∧
        E.verify hash der (pushed w1) = .ok ()) ∧
    ((verifyInput E idx i tx).2 = tx ∨
      (verifyInput E idx i tx).2 = updateCaches tx ((pushed w0).getLast?.getD 0).toUInt32) := by
  -- the hash type of the signature, if there is one
  let T : UInt8 := (pushed w0).getLast?.getD 0
  let H : Bytes := sha256d (witnessPreimage (updateCaches tx T.toUInt32) i T.toUInt32)
  let hasher : UInt8 → Res Bytes := fun t => if t = T then .ok H else .panic
  have hws : witnessSignatureHash tx idx T.toUInt32 = .ok (H, updateCaches tx T.toUInt32) := by
    unfold witnessSignatureHash
    rw [hi]
    rfl
  have hws2 : witnessSignatureHash (updateCaches tx T.toUInt32) idx T.toUInt32 = .ok (H, updateCaches tx T.toUInt32) := by
    unfold witnessSignatureHash
    rw [show (updateCaches tx T.toUInt32).inputs[idx]? = some i from hi, updateCaches_idem]
    rfl
  have ag : VMS.Agree (fun s => s = tx ∨ s = updateCaches tx T.toUInt32) ⟨hash160, some hasher, some E.verify⟩
      (engineEnv E idx .witnessV0) hasher := by
    refine ⟨rfl, rfl, rfl, fun t => ?_⟩
    intro hnp s hs
    by_cases ht : t = T
    · subst ht
      refine ⟨updateCaches tx T.toUInt32, ?_, .inr rfl⟩
      have hT : hasher T = .ok H := if_pos rfl
      change sigHashFn idx .witnessV0 T s = (hasher T, _)
      rw [hT]
      unfold sigHashFn
      rcases hs with rfl | rfl
      · dsimp only; rw [hws]
      · dsimp only; rw [hws2]
    · exact absurd (if_neg ht) hnp
  have key : ∀ r, VM.verify ⟨hash160, some hasher, some E.verify⟩ i.rawUnlockingScript i.finalLockingScript fresh = r → r ≠ .panic →
      ((verifyInput E idx i tx).1 = .ok () ↔ ∃ vm, r = .ok vm) ∧
      ((verifyInput E idx i tx).2 = tx ∨ (verifyInput E idx i tx).2 = updateCaches tx T.toUInt32) := by
    intro r hr hnp
    obtain ⟨s', e, hs'⟩ := VMS.verify_sim ag i.rawUnlockingScript i.finalLockingScript fresh (by rw [hr]; exact hnp) tx (.inl rfl)
    rw [hr] at e
    obtain ⟨k1, k2⟩ := input_of_run hp e
    exact ⟨k1, by rw [k2]; exact hs'⟩
  rw [hu, hf] at key
  rcases two_pushes ⟨hash160, some hasher, some E.verify⟩ hasher E.verify rfl rfl h hh w0 w1 l0 l1 with ⟨q, e, he⟩ | ⟨q0, q1, he⟩
  · obtain ⟨k1, k2⟩ := key _ he (by simp)
    refine ⟨?_, k2⟩
    rw [k1]
    constructor
    · rintro ⟨_, h⟩; cases h
    · rintro ⟨a, b, _⟩; rcases q with q | q <;> contradiction
  · have hsv : sigValue hasher E.verify (pushed w0) (pushed w1) =
        if pushed w0 = [] then .ok false else VM.verified (E.verify H (pushed w0).dropLast (pushed w1)) := by
      unfold sigValue
      rcases ScriptNum.nil_or_snoc (pushed w0) with e | ⟨der, t, e⟩
      · rw [e]; rfl
      · have hT : T = t := by show (pushed w0).getLast?.getD 0 = t; rw [e, List.getLast?_concat]; rfl
        rw [e, List.getLast?_concat, if_neg (by simp)]
        dsimp only
        rw [show hasher t = .ok H from if_pos hT.symm, Res.ok_bind]
    change VM.verify _ _ _ _ = (if hash160 (pushed w1) = h then _ else _) at he
    rw [hsv] at he
    obtain ⟨k1, k2⟩ := key _ he (by
      split_ifs
      · simp [Res.ok_bind]
      · cases hq : E.verify H (pushed w0).dropLast (pushed w1) with
        | ok u => simp [VM.verified, Res.ok_bind]
        | err e => simp [VM.verified, Res.ok_bind]
        | panic => exact absurd hq (hE _ _ _)
      · simp)
    refine ⟨?_, k2⟩
    rw [k1]
    constructor
    · rintro ⟨vm, hvm⟩
      split_ifs at hvm with c1 c2
      · simp [Res.ok_bind] at hvm
      · refine ⟨q0, q1, c1, ?_⟩
        rcases ScriptNum.nil_or_snoc (pushed w0) with e | ⟨der, t, e⟩
        · exact absurd e c2
        · have hT : T = t := by show (pushed w0).getLast?.getD 0 = t; rw [e, List.getLast?_concat]; rfl
          refine ⟨der, t, H, _, e, by rw [← hT]; exact hws, ?_⟩
          rw [e, List.dropLast_concat] at hvm
          cases hq : E.verify H der (pushed w1) with
          | ok u => rfl
          | err er => rw [hq] at hvm; simp [VM.verified, Res.ok_bind] at hvm
          | panic => exact absurd hq (hE _ _ _)
    · rintro ⟨_, _, c1, der, t, hash, tx2, e, hw, hok⟩
      have hT : T = t := by show (pushed w0).getLast?.getD 0 = t; rw [e, List.getLast?_concat]; rfl
      rw [← hT, hws] at hw
      cases hw
      rw [if_pos c1, if_neg (by rw [e]; simp), e, List.dropLast_concat, hok]
      exact ⟨_, rfl⟩

/-- **C111.** Exactly when an input that spends a P2WPKH coin with the witness items `w0`, `w1` is accepted, in any state of
the digest caches: `w1` is a key hashing to the program of the coin, and `w0` is a signature with its hash type for the witness
signature hash of this type, good for this key. -/
theorem C111_p2wpkh_iff (E : Ecdsa κ) (hE : ∀ a b c, E.verify a b c ≠ .panic) (tx : Transaction) (idx : ℕ) (i : TxIn)
    (hi : tx.inputs[idx]? = some i) (h : Bytes) (hp : parse i.rawLockingScript = .ok ⟨.p2wpkh, h⟩) (hh : h.length = 20)
    (hf : i.finalLockingScript = lockP2PKH h) (w0 w1 : Bytes) (l0 : w0.length < 2^32) (l1 : w1.length < 2^32)
    (hu : i.rawUnlockingScript = (addData (addData Buffer.new w0) w1).data) :
    (verifyInput E idx i tx).1 = .ok () ↔ w0 ≠ [0x81] ∧ w1 ≠ [0x81] ∧ hash160 (pushed w1) = h ∧
      ∃ der t hash tx2, pushed w0 = der ++ [t] ∧ witnessSignatureHash tx idx t.toUInt32 = .ok (hash, tx2) ∧
        E.verify hash der (pushed w1) = .ok () :=
  (p2wpkh_run E hE tx idx i hi h hp hh hf w0 w1 l0 l1 hu).1

/-- what an input is after SetTxIn -/
theorem supplyCoins_get (cs : List TxIn) : ∀ (n : ℕ) (tx tx' : Transaction), supplyCoins cs n tx = .ok tx' →
    (∀ k < n, tx'.inputs[k]? = tx.inputs[k]?) ∧
    ∀ j c, cs[j]? = some c → ∃ i s un, tx.inputs[n + j]? = some i ∧ parse c.rawLockingScript = .ok s ∧
      witnessToUnlocking s i.witness = .ok un ∧ tx'.inputs[n + j]? = some { i with
        rawUnlockingScript := un.getD i.rawUnlockingScript, value := c.value, redeemScript := c.redeemScript,
        witnessScriptCode := witnessScriptCode s c.redeemScript, rawLockingScript := rawLocking s,
        finalLockingScript := finalLocking s c.redeemScript } := by
  induction cs with
  | nil =>
    intro n tx tx' h
    cases h
    exact ⟨fun _ _ => rfl, fun j c hj => by simp at hj⟩
  | cons c0 cs ih =>
    intro n tx tx' h
    simp only [supplyCoins] at h
    rw [Res.bind_eq_ok] at h
    obtain ⟨tx1, h1, h⟩ := h
    obtain ⟨a, b⟩ := ih (n + 1) tx1 tx' h
    unfold setTxIn at h1
    cases hi : tx.inputs[n]? with
    | none => rw [hi] at h1; cases h1
    | some i =>
      rw [hi, show Res.ofIdx (some i) = .ok i from rfl, Res.ok_bind] at h1
      rw [Res.bind_eq_ok] at h1
      obtain ⟨s, hs, h1⟩ := h1
      rw [Res.bind_eq_ok] at h1
      obtain ⟨un, hun, h1⟩ := h1
      cases h1
      have hlt : n < tx.inputs.length := by
        by_contra hcc
        rw [List.getElem?_eq_none (by omega)] at hi
        cases hi
      constructor
      · intro k hk
        rw [a k (by omega)]
        unfold putInput
        simp only
        rw [List.getElem?_set_ne (by omega)]
      · intro j c hj
        cases j with
        | zero =>
          simp only [List.getElem?_cons_zero, Option.some.injEq] at hj
          subst hj
          refine ⟨i, s, un, hi, hs, hun, ?_⟩
          rw [Nat.add_zero, a n (by omega)]
          unfold putInput
          simp only
          rw [List.getElem?_set_self hlt]
        | succ j =>
          rw [List.getElem?_cons_succ] at hj
          obtain ⟨i', s', un', e1, e2, e3, e4⟩ := b j c hj
          refine ⟨i', s', un', ?_, e2, e3, ?_⟩
          · rw [← e1]
            unfold putInput
            simp only
            rw [List.getElem?_set_ne (by omega), show n + (j + 1) = n + 1 + j by omega]
          · rw [← e4, show n + (j + 1) = n + 1 + j by omega]

/-- **C111 (partial).** Full statement: a received transaction that Verify accepts was signed, for each of its inputs, with a key
of the coin. Proved for the inputs that spend P2WPKH coins, in transactions with any other inputs: the first two witness items
are a signature and a key that hashes to the program of the coin, and the signature is good for the key and the signature
hash of the transaction (in some state of its digest caches, C42). For the other kinds it is false (`C111_forged`). -/
theorem C111_received_partial (E : Ecdsa κ) (hE : ∀ a b c, E.verify a b c ≠ .panic) (coins : List TxIn) (txd tx : Transaction)
    (hs : supplyCoins coins 0 txd = .ok tx) (hv : (verify E tx).1 = .ok ()) (idx : ℕ) (c : TxIn) (hc : coins[idx]? = some c)
    (h : Bytes) (hh : h.length = 20) (hk : c.rawLockingScript = standardScript .p2wpkh h)
    (hw : ∀ i ∈ txd.inputs, ∀ w ∈ i.witness, w.length < 2^32) :
    ∃ i w0 w1 rest, txd.inputs[idx]? = some i ∧ i.witness = w0 :: w1 :: rest ∧ hash160 (pushed w1) = h ∧
      ∃ der t hash tx1 tx2, pushed w0 = der ++ [t] ∧ SameTx tx1 tx ∧ witnessSignatureHash tx1 idx t.toUInt32 = .ok (hash, tx2) ∧
        E.verify hash der (pushed w1) = .ok () := by
  obtain ⟨i, s, un, hi, hp, hun, hi'⟩ := (supplyCoins_get coins 0 txd tx hs).2 idx c hc
  rw [Nat.zero_add] at hi hi'
  have hp' := C29_parse_build .p2wpkh h hh
  rw [C29_build .p2wpkh h hh, ← hk, hp] at hp'
  cases hp'
  unfold witnessToUnlocking at hun
  dsimp only at hun
  have hws := hw i (List.mem_of_getElem? hi)
  match hwit : i.witness with
  | [] => rw [hwit] at hun; cases hun
  | [_] => rw [hwit] at hun; cases hun
  | w0 :: w1 :: rest =>
    rw [hwit] at hun hws
    cases hun
    obtain ⟨tx1, hsame, hok⟩ := each_same hv idx _ hi'
    have hraw := C29_parse_build .p2wpkh h hh
    have := (C111_p2wpkh_iff E hE tx1 idx _ (by rw [hsame.2.2.1]; exact hi') h hraw hh (C29_build .p2pkh h hh) w0 w1
      (hws w0 (by simp)) (hws w1 (by simp)) rfl).mp hok
    obtain ⟨_, _, hash, der, t, hsh, tx2, e1, e2, e3⟩ := this
    exact ⟨i, w0, w1, rest, hi, hwit, hash, der, t, hsh, tx1, tx2, e1, hsame, e2, e3⟩

end

/-- A coin of key 7. -/
def spendCoin (k : Locking.Kind) : Tx.TxIn :=
  { Tx.TxIn.empty with value := 1000, rawLockingScript := standardScript k (@hash160 modHashes (toyEcdsa.pub 7 true)) }

/-- A received transaction with one input. -/
def spendTx (w : List Bytes) (u : Bytes) : Tx.Transaction :=
  { Tx.new with inputs := [{ Tx.TxIn.empty with hash := List.replicate 32 1, witness := w, rawUnlockingScript := u }] }

/-- Its verdict after SetTxIn with the coin. -/
def spendVerdict (k : Locking.Kind) (w : List Bytes) (u : Bytes) : Res Unit :=
  (@supplyCoins modHashes [spendCoin k] 0 (spendTx w u)).bind fun tx => (@Tx.verify _ modHashes toyEcdsa tx).1

/-- The signature of key 7 for spending the P2WPKH coin. -/
def spendSig : Res Bytes :=
  (@supplyCoins modHashes [spendCoin .p2wpkh] 0 (spendTx [[], []] [])).bind fun tx =>
    (@Tx.witnessSignatureHash modHashes tx 0 1).bind fun p => .ok (p.1 ++ [7, 1])

/-- The P2WPKH coin is spent by its signature and not by that of another key or by `OP_0 OP_IF`; the P2PKH coin is spent by
`OP_0 OP_IF`. -/
example : spendSig.bind (fun s => spendVerdict .p2wpkh [s, toyEcdsa.pub 7 true] []) = .ok () ∧
    spendSig.bind (fun s => spendVerdict .p2wpkh [s, toyEcdsa.pub 8 true] []) = .err Tx.errVerifyFailed ∧
    spendVerdict .p2wpkh [[0x00], [0x63]] (openIfs 1) = .err Tx.errVerifyFailed ∧
    spendVerdict .p2pkh [] (openIfs 1) = .ok () ∧ spendVerdict .p2sh [] (openIfs 1) = .ok () := by
  refine ⟨by decide +kernel, by decide +kernel, by decide +kernel, by decide +kernel, by decide +kernel⟩

end Toku.Props
