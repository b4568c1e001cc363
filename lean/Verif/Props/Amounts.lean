import Verif.Proof.VMSLock
import Verif.Props.Built
import Verif.Props.Spend
/-
Property C131: whether a transaction that is built or accepted spends a coin twice or pays out more than it takes in
(xcore/transaction.go:684-734, 802-814, xcore/transactionbuilder.go).
-/
namespace Toku.Props
open Toku Toku.Spec Toku.VM Toku.Locking Toku.Script Toku.Tx
open Toku.Builder (Coin Settings build Call run)

section
variable {κ : Type} [Hashes]

/-! ### amounts of legacy coins are not read -/

/-- The input spends a coin of one of the two witness kinds. -/
def spendsWitness (i : TxIn) : Bool :=
  match parse i.rawLockingScript with
  | .ok s => decide (s.kind = .p2wpkh ∨ s.kind = .p2wsh)
  | _ => false

/-- `tx` without the amounts of its legacy coins. -/
def unpriced (tx : Transaction) : Transaction :=
  { tx with inputs := tx.inputs.map fun i => if spendsWitness i then i else { i with value := 0 } }

omit [Hashes] in
private theorem foldRes_map' {α β γ : Type} (f : γ → β → Res γ) (g : α → β) (l : List α) : ∀ b : γ,
    foldRes f b (l.map g) = foldRes (fun b a => f b (g a)) b l := by
  induction l with
  | nil => intro b; rfl
  | cons a l ih =>
    intro b
    simp only [List.map_cons, foldRes]
    congr 1
    funext c
    exact ih c

private theorem raw_unpriced (tx : Transaction) (idx : ℕ) (t : UInt32) :
    rawSignatureHash (unpriced tx) idx t = rawSignatureHash tx idx t := by
  unfold rawSignatureHash rawPreimage writeSigAll unpriced
  dsimp only
  rw [List.length_map, List.zipIdx_map, foldRes_map']
  have e : (fun (b : Buffer) (a : TxIn × ℕ) => writeSigInput idx b (Prod.map (fun i => if spendsWitness i then i else { i with value := 0 }) id a)) =
      writeSigInput idx := by
    funext b a
    obtain ⟨i, n⟩ := a
    unfold writeSigInput
    dsimp only [Prod.map, id]
    cases spendsWitness i <;> rfl
  rw [e]

private theorem updateCaches_unpriced (tx : Transaction) (t : UInt32) :
    updateCaches (unpriced tx) t = unpriced (updateCaches tx t) := by
  unfold updateCaches cachePrevouts cacheSequence cacheOutputs unpriced
  dsimp only
  rw [List.foldl_map, List.foldl_map]
  have e1 : (fun (b : Buffer) (i : TxIn) => (b.writeBytes (if spendsWitness i then i else { i with value := 0 }).hash).writeU32
      (if spendsWitness i then i else { i with value := 0 }).index) = fun b i => (b.writeBytes i.hash).writeU32 i.index := by
    funext b i
    split <;> rfl
  have e2 : (fun (b : Buffer) (i : TxIn) => b.writeU32 (if spendsWitness i then i else { i with value := 0 }).sequence) =
      fun b i => b.writeU32 i.sequence := by
    funext b i
    split <;> rfl
  rw [e1, e2]

private theorem sigHash_unpriced (tx : Transaction) (idx : ℕ) (v : Version) (t : UInt8)
    (hv : v = .witnessV0 → ∀ i, tx.inputs[idx]? = some i → spendsWitness i = true) :
    sigHashFn idx v t (unpriced tx) = ((sigHashFn idx v t tx).1, unpriced (sigHashFn idx v t tx).2) := by
  cases v with
  | base =>
    change (rawSignatureHash (unpriced tx) idx _, unpriced tx) = _
    rw [raw_unpriced]
    rfl
  | witnessV0 =>
    unfold sigHashFn
    dsimp only
    unfold witnessSignatureHash
    have e : (unpriced tx).inputs[idx]? = tx.inputs[idx]? := by
      unfold unpriced
      rw [List.getElem?_map]
      cases h : tx.inputs[idx]? with
      | none => rfl
      | some i =>
        rw [Option.map_some, if_pos (hv rfl i h)]
    rw [e, updateCaches_unpriced]
    cases tx.inputs[idx]? with
    | none => rfl
    | some i => rfl

private theorem sigHash_same' (tx : Transaction) (idx : ℕ) (v : Version) (t : UInt8) : SameTx (sigHashFn idx v t tx).2 tx := by
  unfold sigHashFn
  cases v with
  | base => exact ⟨rfl, rfl, rfl, rfl⟩
  | witnessV0 =>
    dsimp only
    unfold witnessSignatureHash
    cases tx.inputs[idx]? with
    | none => exact ⟨rfl, rfl, rfl, rfl⟩
    | some i => exact ⟨rfl, rfl, rfl, rfl⟩

private def RelA (T a b : Transaction) : Prop := unpriced a = unpriced b ∧ SameTx (unpriced a) (unpriced T)

omit [Hashes] in
private theorem spendsWitness_unpriced {tx : Transaction} {idx : ℕ} :
    (unpriced tx).inputs[idx]?.map spendsWitness = tx.inputs[idx]?.map spendsWitness := by
  unfold unpriced
  rw [List.getElem?_map, Option.map_map]
  congr 1
  funext i
  simp only [Function.comp]
  split <;> rfl

private theorem sigHash_lockA (T : Transaction) (idx : ℕ) (v : Version) (t : UInt8)
    (hv : v = .witnessV0 → ∀ i, T.inputs[idx]? = some i → spendsWitness i = true) :
    VMS.Lock (RelA T) (fun _ => False) (sigHashFn idx v t) (sigHashFn idx v t) := by
  refine ⟨?_, fun _ h => h.elim⟩
  rintro a b ⟨h1, h2⟩
  left
  have hva : ∀ c, unpriced c = unpriced a → v = .witnessV0 → ∀ i, c.inputs[idx]? = some i → spendsWitness i = true := by
    intro c hc e i hi
    have h3 : c.inputs[idx]?.map spendsWitness = T.inputs[idx]?.map spendsWitness := by
      rw [← spendsWitness_unpriced, hc, h2.2.2.1, spendsWitness_unpriced]
    rw [hi, Option.map_some] at h3
    cases h4 : T.inputs[idx]? with
    | none => rw [h4] at h3; cases h3
    | some j =>
      rw [h4, Option.map_some] at h3
      rw [Option.some.inj h3]
      exact hv e j h4
  have ea := sigHash_unpriced a idx v t (hva a rfl)
  have eb := sigHash_unpriced b idx v t (hva b h1.symm)
  rw [h1, eb, Prod.mk.injEq] at ea
  refine ⟨ea.1.symm, ea.2.symm, ?_⟩
  have hs := sigHash_same' (unpriced b) idx v t
  rw [eb] at hs
  dsimp only at hs
  rw [← ea.2]
  rw [h1] at h2
  exact ⟨hs.1.trans h2.1, hs.2.1.trans h2.2.1, hs.2.2.1.trans h2.2.2.1, hs.2.2.2.trans h2.2.2.2⟩

private def judgedA (m : VMS.M Transaction State) : VMS.M Transaction Unit := fun tx =>
  match m tx with
  | (.ok _, tx) => (.ok (), tx)
  | (.err _, tx) => (.err errVerifyFailed, tx)
  | (.panic, tx) => (.panic, tx)

omit [Hashes] in
private theorem judged_lockA {R : Transaction → Transaction → Prop} {m1 m2 : VMS.M Transaction State}
    (h : VMS.Lock R (fun _ => False) m1 m2) : VMS.Lock R (fun _ => False) (judgedA m1) (judgedA m2) := by
  refine ⟨fun s1 s2 hr => ?_, fun _ h => h.elim⟩
  rcases h.step s1 s2 hr with ⟨e, hr'⟩ | hq
  · left
    unfold judgedA
    cases h1 : m1 s1 with
    | mk r t =>
      cases h2 : m2 s2 with
      | mk r' t' =>
        rw [h1, h2] at e hr'
        dsimp only at e hr'
        subst e
        cases r <;> exact ⟨rfl, hr'⟩
  · exact hq.elim

private theorem verifyInput_lockA (E : Ecdsa κ) (T : Transaction) (idx : ℕ) (i : TxIn) (hi : T.inputs[idx]? = some i) :
    VMS.Lock (RelA T) (fun _ => False) (verifyInput E idx i) (verifyInput E idx i) := by
  unfold verifyInput
  cases hp : parse i.rawLockingScript with
  | err e => exact ⟨fun a b h => .inl ⟨rfl, h⟩, fun _ h => h.elim⟩
  | panic => exact ⟨fun a b h => .inl ⟨rfl, h⟩, fun _ h => h.elim⟩
  | ok s =>
    have hv : scriptVersion s = .witnessV0 → ∀ j, T.inputs[idx]? = some j → spendsWitness j = true := by
      intro e j hj
      rw [hi] at hj
      cases hj
      unfold spendsWitness
      rw [hp]
      dsimp only
      rw [decide_eq_true_eq]
      unfold scriptVersion at e
      revert e
      cases s.kind <;> simp
    exact judged_lockA (VMS.verify_lock (es := engineEnv E idx (scriptVersion s)) (sigHash_lockA T idx (scriptVersion s) · hv) _ _ _)

private theorem verifyInputs_lockA (E : Ecdsa κ) (T : Transaction) {l m : List (TxIn × ℕ)}
    (h : List.Forall₂ (fun p q => VMS.Lock (RelA T) (fun _ => False) (verifyInput E p.2 p.1) (verifyInput E q.2 q.1)) l m) :
    VMS.Lock (RelA T) (fun _ => False) (verifyInputs E l) (verifyInputs E m) := by
  induction h with
  | nil => exact VMS.Lock.lift _
  | cons h _ ih => exact VMS.Lock.bind h fun _ => ih

/-- **C131.** Verify does not read the amounts of P2PKH and P2SH coins: two transactions that differ in these amounts only have the
same verdict. -/
theorem C131_legacy_amounts (E : Ecdsa κ) (a b : Transaction) (hab : unpriced a = unpriced b) : (verify E a).1 = (verify E b).1 := by
  have hin : a.inputs.map (fun i => if spendsWitness i then i else { i with value := 0 }) =
      b.inputs.map (fun i => if spendsWitness i then i else { i with value := 0 }) := congrArg Transaction.inputs hab
  have hlen : a.inputs.length = b.inputs.length := by
    have := congrArg List.length hin
    rwa [List.length_map, List.length_map] at this
  have h2 : List.Forall₂ (fun p q => VMS.Lock (RelA a) (fun _ => False) (verifyInput E p.2 p.1) (verifyInput E q.2 q.1))
      a.inputs.zipIdx b.inputs.zipIdx := by
    rw [List.forall₂_iff_get]
    refine ⟨by rw [List.length_zipIdx, List.length_zipIdx, hlen], fun n h1 h2 => ?_⟩
    rw [List.length_zipIdx] at h1 h2
    simp only [List.get_eq_getElem, List.getElem_zipIdx, Nat.zero_add]
    have e := congrArg (fun l : List TxIn => l[n]?) hin
    simp only [List.getElem?_map, List.getElem?_eq_getElem h1, List.getElem?_eq_getElem h2, Option.map_some, Option.some.injEq] at e
    have pick : ∀ (g : TxIn → Bytes), (∀ i v, g { i with value := v } = g i) → g a.inputs[n] = g b.inputs[n] := by
      intro g hg
      have e1 := congrArg g e
      have k : ∀ i : TxIn, g (if spendsWitness i then i else { i with value := 0 }) = g i := by
        intro i
        split
        · rfl
        · exact hg i 0
      rwa [k, k] at e1
    have ev : verifyInput E n a.inputs[n] = verifyInput E n b.inputs[n] := by
      unfold verifyInput
      rw [pick TxIn.rawLockingScript (fun _ _ => rfl), pick TxIn.finalLockingScript (fun _ _ => rfl),
        pick TxIn.rawUnlockingScript (fun _ _ => rfl)]
    rw [← ev]
    exact verifyInput_lockA E _ n _ (List.getElem?_eq_getElem h1)
  rcases (verifyInputs_lockA E a h2).step a b ⟨hab, rfl, rfl, rfl, rfl⟩ with ⟨e, _⟩ | hq
  · exact e
  · exact hq.elim

/-- **C131**, negation: a transaction without inputs is accepted, whatever it pays out. -/
theorem C131_negation_nothing (E : Ecdsa κ) (tx : Transaction) (h : tx.inputs = []) : (verify E tx).1 = .ok () := by
  unfold Tx.verify
  rw [h]
  rfl

/-! ### Fees -/

omit [Hashes] in
private theorem fold_total {α : Type} (v : α → UInt64) (l : List α) : ∀ a : UInt64,
    (l.foldl (fun a o => a + v o) a).toNat = (a.toNat + (l.map fun o => (v o).toNat).sum) % 2^64 := by
  induction l with
  | nil => intro a; have := a.toNat_lt; simp
  | cons x l ih =>
    intro a
    rw [List.foldl_cons, ih, UInt64.toNat_add, List.map_cons, List.sum_cons, Nat.mod_add_mod, Nat.add_assoc]

omit [Hashes] in
/-- **C131.** `Fees` is what the inputs hold minus what the outputs pay, as a 64-bit number. -/
theorem C131_fees (tx : Transaction) : -2^63 ≤ fees tx ∧ fees tx < 2^63 ∧ fees tx % 2^64 = ((inputTotal tx : ℤ) - outputTotal tx) % 2^64 := by
  unfold fees inputTotal outputTotal
  have h1 := fold_total (fun i : TxIn => i.value) tx.inputs 0
  have h2 := fold_total (fun o : TxOut => o.value) tx.outputs 0
  simp only [UInt64.toNat_zero, Nat.zero_add] at h1 h2
  generalize tx.inputs.foldl (fun (a : UInt64) i => a + i.value) 0 = a at h1
  generalize tx.outputs.foldl (fun (a : UInt64) o => a + o.value) 0 = c at h2
  generalize (tx.inputs.map fun i => i.value.toNat).sum = x at h1
  generalize (tx.outputs.map fun o => o.value.toNat).sum = y at h2
  unfold intOfU64
  refine ⟨(Builder.wrap64_range _).1, (Builder.wrap64_range _).2, ?_⟩
  rw [Builder.wrap64_mod, UInt64.toNat_sub]
  have hc := c.toNat_lt
  generalize a.toNat = a at h1
  generalize c.toNat = c at h2 hc
  omega

omit [Hashes] in
/-- **C131.** Below 2^63 a transaction that pays out more than it takes in is told by a negative fee. -/
theorem C131_fees_sign (tx : Transaction) (h1 : inputTotal tx < 2^63) (h2 : outputTotal tx < 2^63) :
    fees tx = (inputTotal tx : ℤ) - outputTotal tx ∧ (fees tx < 0 ↔ inputTotal tx < outputTotal tx) := by
  have := C131_fees tx
  omega

/-! ### the builder -/

/-- **C131.** The inputs of a built transaction name the coins given, in order; so a coin is spent twice exactly when it was given
twice. -/
theorem C131_built (E : Ecdsa κ) (b : Settings κ) (tx : Transaction) (h : build E b = .ok tx) :
    tx.inputs.map (fun i => (Res.ok i.hash, i.index)) = (spends b).map (fun p => (Id.fromString p.1.txID, p.1.n)) ∧
    ((tx.inputs.map fun i => (i.hash, i.index)).Nodup ↔ ((spends b).map fun p => (Id.fromString p.1.txID, p.1.n)).Nodup) := by
  have h1 := (C47_outputs E b tx h).1
  have e : tx.inputs.map (fun i => (Res.ok i.hash, i.index)) = (spends b).map (fun p => (Id.fromString p.1.txID, p.1.n)) := by
    clear h
    generalize spends b = l at h1
    generalize tx.inputs = m at h1
    induction h1 with
    | nil => rfl
    | cons hd _ ih =>
      rw [List.map_cons, List.map_cons, ih]
      congr 1
      obtain ⟨txid, script, h2, _, h4⟩ := hd
      unfold newTxIn at h4
      obtain ⟨s, _, h4⟩ := Res.bind_eq_ok.mp h4
      have h4 := Res.ok.inj h4
      have e1 := congrArg TxIn.hash h4
      have e2 := congrArg TxIn.index h4
      dsimp only at e1 e2
      rw [h2, e1, e2]
  refine ⟨e, ?_⟩
  rw [← e]
  have e2 : tx.inputs.map (fun i => ((Res.ok i.hash : Res Bytes), i.index)) =
      (tx.inputs.map fun i => (i.hash, i.index)).map fun p => (Res.ok p.1, p.2) := by
    rw [List.map_map]
    rfl
  rw [e2]
  constructor
  · intro hn
    refine hn.map ?_
    rintro ⟨a, n⟩ ⟨c, m⟩ he
    injection he with h1 h2
    injection h1 with h1
    exact Prod.ext h1 h2
  · exact fun hn => List.Nodup.of_map _ hn

end

/-! ### examples and counterexamples -/

/-- The transaction of `builtCalls` (a P2PKH and a P2WPKH coin) spends two different coins. With another amount of the first coin it is
still accepted, with another amount of the second it is not. -/
example : ((@build _ modHashes toyEcdsa (run builtCalls)).bind fun tx =>
    let b (k : ℕ) : Transaction := { tx with inputs := tx.inputs.modify k fun i => { i with value := 1000000 } }
    .ok (decide ((tx.inputs.map fun i => (i.hash, i.index)).Nodup), decide (unpriced tx = unpriced (b 0)), decide ((b 0).inputs = tx.inputs),
      decide ((@verify _ modHashes toyEcdsa (b 0)).1 = .ok ()), decide (unpriced tx = unpriced (b 1)),
      decide ((@verify _ modHashes toyEcdsa (b 1)).1 = .ok ()))) =
    .ok (true, true, false, true, false, false) := by
  decide +kernel

/-- **C131**, negation for `Fees`: with outputs of 2^64 in all and nothing taken in, the fee shown is 0. -/
theorem C131_negation_fees : ∃ tx : Transaction, tx.inputs = [] ∧ outputTotal tx = 2^64 ∧ fees tx = 0 :=
  ⟨⟨1, 0, [], [⟨2^63, [0x51]⟩, ⟨2^63, [0x51]⟩], none, none, none⟩, rfl, by decide +kernel, by decide +kernel⟩

/-- one coin of 5000 of key 7, given twice, and a payment of 9000 -/
def twiceCalls : List (Call UInt8) :=
  let coin : Coin := ⟨List.replicate 64 0x31, 0, 5000, Id.hexEncode (standardScript .p2pkh (@hash160 modHashes (toyEcdsa.pub 7 true)))⟩
  [.addCoin (some coin), .addKeys (some [7]), .then_, .addCoin (some coin), .addKeys (some [7]), .to (some exAddr) 9000, .then_,
   .setChange (some exAddr), .sendFees 500, .sign]

/-- **C131**, negation: a coin of 5000 given twice pays 9500; the transaction is built and accepted, and spends the coin twice. -/
theorem C131_negation_twice : ∃ tx, @build _ modHashes toyEcdsa (run twiceCalls) = .ok tx ∧ (@verify _ modHashes toyEcdsa tx).1 = .ok () ∧
    (tx.inputs.map fun i => (i.hash, i.index, i.value)) = List.replicate 2 (List.replicate 32 0x11, 0, 5000) ∧ outputTotal tx = 9500 := by
  have h : ((@build _ modHashes toyEcdsa (run twiceCalls)).bind fun tx => ((@verify _ modHashes toyEcdsa tx).1).bind fun _ => .ok
      ((tx.inputs.map fun i => (i.hash, i.index, i.value)), outputTotal tx)) =
        .ok (List.replicate 2 (List.replicate 32 0x11, 0, 5000), 9500) := by decide +kernel
  obtain ⟨tx, e, h⟩ := Res.bind_eq_ok.mp h
  obtain ⟨_, e1, h⟩ := Res.bind_eq_ok.mp h
  have h := Res.ok.inj h
  rw [Prod.mk.injEq] at h
  exact ⟨tx, e, e1, h⟩

end Toku.Props
