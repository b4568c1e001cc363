import Verif.Proof.TxText
import Verif.Props.Builder
/-
Property C100: the text of a transaction.
-/
namespace Toku.Props
open Toku Toku.Spec Toku.Tx Toku.TxText Toku.Spec.TxText

/-- **C100.** When the text cannot be made: `ToString` panics exactly if some input has a script code for a witness but no
witness. Otherwise it returns a text. -/
theorem C100_panics_iff (T : Texts) (sighash : ℕ → Bytes) (tx : Transaction) (h : AllFit tx) :
    (TxText.toString T sighash tx = .panic ↔ ∃ i ∈ tx.inputs, i.witnessScriptCode ≠ none ∧ i.witness = []) ∧
    (TxText.toString T sighash tx = .panic ∨ ∃ text, TxText.toString T sighash tx = .ok text) := by
  have hw : ∀ i : TxIn, i.hasWitness = true ↔ i.witnessScriptCode ≠ none := by
    intro i; unfold TxIn.hasWitness; cases i.witnessScriptCode <;> simp
  simp only [← hw]
  rcases toString_cases T sighash tx h with ⟨p, e⟩ | ⟨p, l, e⟩ <;> rw [e]
  · exact ⟨⟨fun _ => p, fun _ => rfl⟩, .inl rfl⟩
  · exact ⟨⟨fun h => (by simp at h), fun h => absurd h p⟩, .inr ⟨l, rfl⟩⟩

/-- **C100, negation.** A transaction built without signing that spends a witness coin (pay to witness public key hash, or pay to
witness script hash with the redeem script given) has no text: `ToString` panics. -/
theorem C100_unsigned_panics {κ : Type} [Hashes] (E : Ecdsa κ) (b : Builder.Settings κ) (hs : b.sign = false) (tx : Transaction)
    (h : Builder.build E b = .ok tx) (hf : AllFit tx) (p : Builder.Coin × Builder.Group κ) (hp : p ∈ spends b) (script : Bytes)
    (hx : Id.hexDecode p.1.script = .ok script) (ls : Locking.LockScript) (hk : Locking.parse script = .ok ls)
    (hw : ls.kind = .p2wpkh ∨ (ls.kind = .p2wsh ∧ p.2.redeemScript ≠ none)) (T : Texts) (sighash : ℕ → Bytes) :
    TxText.toString T sighash tx = .panic := by
  rw [(C100_panics_iff T sighash tx hf).1]
  obtain ⟨ins, change, f, h'⟩ := Builder.build_ok.mp h
  replace h' := h'.2.2.2.2.2.2
  rw [hs] at h'
  cases h'
  change ∃ i ∈ ins, _
  clear hf
  clear h
  revert hp f
  generalize spends b = l
  intro hp f
  induction f with
  | nil => cases hp
  | @cons q i l ins hq _ ih =>
    rcases List.mem_cons.mp hp with rfl | hp
    · refine ⟨i, by simp, ?_⟩
      obtain ⟨_, s, _, e2, e3⟩ := hq
      rw [hx] at e2
      cases e2
      unfold newTxIn at e3
      rw [hk] at e3
      cases e3
      refine ⟨?_, rfl⟩
      unfold Locking.witnessScriptCode
      rcases hw with hw | ⟨hw, hn⟩ <;> rw [hw]
      · simp
      · exact hn
    · obtain ⟨j, hj, r⟩ := ih hp
      exact ⟨j, by simp [hj], r⟩

private theorem same_sizes {tx tx' : Transaction} (h : List.Forall₂ SameShown tx.inputs tx'.inputs) (ho : tx.outputs = tx'.outputs) :
    baseSize tx = baseSize tx' ∧ fees tx = fees tx' := by
  have hl := h.length_eq
  have hm : (tx.inputs.map fun i => i.hash.length + 4 +
      Buffer.varIntSerializeSize (UInt64.ofNat i.rawUnlockingScript.length) + i.rawUnlockingScript.length + 4) =
      tx'.inputs.map fun i => i.hash.length + 4 +
      Buffer.varIntSerializeSize (UInt64.ofNat i.rawUnlockingScript.length) + i.rawUnlockingScript.length + 4 := by
    clear ho hl
    revert h
    generalize tx.inputs = l
    generalize tx'.inputs = l'
    intro h
    induction h with
    | nil => rfl
    | cons hx _ ih => rw [List.map_cons, List.map_cons, ih, hx.1, hx.2.2.2.2.2.1]
  have hv : ∀ a : UInt64, tx.inputs.foldl (fun a i => a + i.value) a = tx'.inputs.foldl (fun a i => a + i.value) a := by
    clear ho hl hm
    revert h
    generalize tx.inputs = l
    generalize tx'.inputs = l'
    intro h
    induction h with
    | nil => intro a; rfl
    | cons hx _ ih => intro a; rw [List.foldl_cons, List.foldl_cons, hx.2.2.1, ih]
  exact ⟨by unfold baseSize; rw [hl, ho, hm], by unfold fees; rw [hv, ho]⟩

private theorem lines_same {T : Texts} {s s' : ℕ → Bytes} {ins ins' : List TxIn} (h : List.Forall₂ SameShown ins ins') :
    ∀ k, (∀ j < ins.length, s (k + j) = s' (k + j)) → inputsLines T s k ins = inputsLines T s' k ins' := by
  induction h with
  | nil => intro k _; rfl
  | @cons i i' ins ins' hx hr ih =>
    intro k hs
    have he : ins.isEmpty = ins'.isEmpty := by
      cases hr with
      | nil => rfl
      | cons => rfl
    unfold inputsLines
    rw [ih (k + 1) fun j hj => by
      have := hs (j + 1) (by simpa using hj)
      rwa [show k + (j + 1) = k + 1 + j by omega] at this]
    have h1 : inputLines T (s k) i ins.isEmpty = inputLines T (s' k) i' ins'.isEmpty := by
      obtain ⟨a1, a2, a3, a4, a5, a6, a7, a8, a9⟩ := hx
      have hw : witnessLines i = witnessLines i' := by
        unfold witnessLines
        rw [← a8]
        cases hc : i.witnessScriptCode with
        | none => rfl
        | some c =>
          have := a9 (by simp [hc])
          dsimp only
          rw [← List.head?_eq_getElem?, ← List.head?_eq_getElem?, this]
      unfold inputLines
      rw [a1, a2, a3, a4, a5, a6, a7, hw, he, show s k = s' k from hs 0 (by simp)]
    rw [h1]

/-- **C100.** What the text shows. Two transactions of readable scripts, which have texts, have the same text exactly if they agree in:
the inputs in order, each with its outpoint, amount, locking scripts, unlocking script, redeem script, script code and first
witness item; the signature hashes; the outputs in order; and the total size of the witnesses. -/
theorem C100_same_text_iff (T : Texts) (h1 : ∀ a b, (0x0a : UInt8) ∉ T.feesPerByte a b) (h2 : ∀ a b, (0x0a : UInt8) ∉ T.saving a b)
    (s s' : ℕ → Bytes) (tx tx' : Transaction) (hr : AllReadable tx) (hr' : AllReadable tx')
    (hp : TxText.toString T s tx ≠ .panic) (hp' : TxText.toString T s' tx' ≠ .panic) :
    TxText.toString T s tx = TxText.toString T s' tx' ↔
      List.Forall₂ SameShown tx.inputs tx'.inputs ∧ (∀ k < tx.inputs.length, s k = s' k) ∧ tx.outputs = tx'.outputs ∧
      witnessSize tx = witnessSize tx' := by
  have fit : ∀ {tx}, AllReadable tx → AllFit tx := fun h =>
    ⟨fun i hi => ⟨(h.1 i hi).1.1, (h.1 i hi).2.1.1, (h.1 i hi).2.2.1.1, fun r hr => ((h.1 i hi).2.2.2 r hr).1⟩,
      fun o ho => (h.2 o ho).1⟩
  have parts : ∀ {s tx}, AllReadable tx → TxText.toString T s tx ≠ .panic → ∃ ins outs, inputsLines T s 0 tx.inputs = .ok ins ∧
      outputsLines T tx.outputs = .ok outs := by
    intro s tx hr hp
    obtain ⟨outs, eo⟩ := outputsLines_ok T tx.outputs (fit hr).2
    rcases inputsLines_cases T s tx.inputs (fit hr).1 0 with ⟨_, e⟩ | ⟨_, ins, e⟩
    · unfold TxText.toString at hp
      rw [e] at hp
      exact absurd rfl hp
    · exact ⟨ins, outs, e, eo⟩
  obtain ⟨ins, outs, ei, eo⟩ := parts hr hp
  obtain ⟨ins', outs', ei', eo'⟩ := parts hr' hp'
  constructor
  · intro h
    unfold TxText.toString at h
    rw [ei, eo, ei', eo'] at h
    have h := Res.ok.inj h
    have shape : ∀ (a b c : List Bytes), join ([ascii "\n{".toList, ascii "  \"inputs\":[".toList] ++ a ++
        [ascii "  ],".toList, ascii "  \"outputs\":[".toList] ++ b ++ [ascii "  ],".toList] ++ c ++ [ascii "}\n".toList]) =
        [0x0a] ++ join (ascii "{".toList :: ascii "  \"inputs\":[".toList :: (a ++
          (ascii "  ],".toList :: ascii "  \"outputs\":[".toList :: (b ++ (ascii "  ],".toList :: (c ++ [ascii "}".toList])))))) ++
          [0x0a] := by
      intro a b c
      have e1 : ascii "\n{".toList = [0x0a] ++ ascii "{".toList := by decide
      have e2 : ascii "}\n".toList = ascii "}".toList ++ [0x0a] := by decide
      rw [e1, e2, join_snoc _ _ _ (by simp)]
      simp only [List.cons_append, List.nil_append, List.append_assoc]
      exact congrArg (· ++ [0x0a]) (join_cons_append [0x0a] _ _)
    rw [shape, shape] at h
    have h := List.append_cancel_left (List.append_cancel_right h)
    have nl : ∀ {s tx a b}, AllReadable tx → inputsLines T s 0 tx.inputs = .ok a → outputsLines T tx.outputs = .ok b →
        ∀ w ∈ ascii "{".toList :: ascii "  \"inputs\":[".toList :: (a ++
          (ascii "  ],".toList :: ascii "  \"outputs\":[".toList :: (b ++ (ascii "  ],".toList :: (sizeLines T tx ++ [ascii "}".toList]))))),
        NoNl w := by
      intro s tx a b hr ea eb w hw
      simp only [List.mem_cons, List.mem_append, List.not_mem_nil, or_false] at hw
      rcases hw with rfl | rfl | hw | rfl | rfl | hw | rfl | hw | rfl
      · unfold NoNl; decide
      · unfold NoNl; decide
      · exact nonl_inputsLines hr.1 ea w hw
      · unfold NoNl; decide
      · unfold NoNl; decide
      · exact nonl_outputsLines hr.2 eb w hw
      · unfold NoNl; decide
      · exact nonl_sizeLines h1 h2 tx w hw
      · unfold NoNl; decide
    have h := join_inj (nl hr ei eo) (nl hr' ei' eo') (by simp) (by simp) h
    simp only [List.cons.injEq, true_and] at h
    obtain ⟨g1, g2, g3⟩ := inputsLines_inj hr.1 hr'.1 ei ei' h
    simp only [List.cons.injEq, true_and] at g3
    obtain ⟨g4, g5⟩ := outputsLines_inj hr.2 hr'.2 eo eo' g3
    refine ⟨g1, by simpa using g2, g4, ?_⟩
    unfold sizeLines at g5
    simp only [List.cons_append, List.cons.injEq] at g5
    exact dec_inj (quoted_inj g5.2.1)
  · rintro ⟨g1, g2, g3, g4⟩
    obtain ⟨e1, e2⟩ := same_sizes g1 g3
    have hz : sizeLines T tx = sizeLines T tx' := by
      unfold sizeLines vsize weight size
      rw [e1, e2, g4]
    unfold TxText.toString
    rw [lines_same g1 0 (by simpa using g2), g3, hz]

private theorem readMany_all {α : Type} {rd : Buffer → Res (α × Buffer)} {P : α → Prop} (h : ∀ b x b', rd b = .ok (x, b') → P x) :
    ∀ n b xs b', readMany rd n b = .ok (xs, b') → ∀ x ∈ xs, P x := by
  intro n
  induction n with
  | zero => intro b xs b' e; cases e; simp
  | succ n ih =>
    intro b xs b' e
    obtain ⟨⟨x, b1⟩, e1, e⟩ := Res.bind_eq_ok.mp e
    obtain ⟨⟨ys, b2⟩, e2, e⟩ := Res.bind_eq_ok.mp e
    cases e
    intro y hy
    rcases List.mem_cons.mp hy with rfl | hy
    · exact h _ _ _ e1
    · exact ih _ _ _ e2 y hy

private theorem readInput_blank {b b' : Buffer} {i : TxIn} (h : readInput b = .ok (i, b')) :
    i.value = 0 ∧ i.witnessScriptCode = none ∧ i.redeemScript = none := by
  obtain ⟨⟨_, _⟩, _, h⟩ := Res.bind_eq_ok.mp h
  obtain ⟨⟨_, _⟩, _, h⟩ := Res.bind_eq_ok.mp h
  obtain ⟨⟨_, _⟩, _, h⟩ := Res.bind_eq_ok.mp h
  obtain ⟨⟨_, _⟩, _, h⟩ := Res.bind_eq_ok.mp h
  cases h
  exact ⟨rfl, rfl, rfl⟩

private theorem readWitnesses_all {P : TxIn → Prop} (hP : ∀ i w, P i → P { i with witness := w }) :
    ∀ is b is' b', readWitnesses is b = .ok (is', b') → (∀ i ∈ is, P i) → ∀ i ∈ is', P i := by
  intro is
  induction is with
  | nil => intro b is' b' e _; cases e; simp
  | cons i is ih =>
    intro b is' b' e hi
    obtain ⟨⟨w, b1⟩, e1, e⟩ := Res.bind_eq_ok.mp e
    obtain ⟨⟨ys, b2⟩, e2, e⟩ := Res.bind_eq_ok.mp e
    cases e
    intro y hy
    rcases List.mem_cons.mp hy with rfl | hy
    · exact hP _ _ (hi i (by simp))
    · exact ih _ _ _ e2 (fun i h => hi i (by simp [h])) y hy

/-- **C100, negation.** The fee and the sizes shown for a transaction read from its wire format are not those of the transaction: no input is
taken for a witness input, the witnesses count nothing, and the fee is minus the total of the outputs (as a 64-bit
number). -/
theorem C100_read_back (raw rest : Bytes) (tx : Transaction) (h : deserialize Tx.new raw = .ok (tx, rest)) :
    (∀ i ∈ tx.inputs, i.witnessScriptCode = none) ∧ witnessSize tx = 0 ∧
    (outputTotal tx < 2^63 → fees tx = -(outputTotal tx : ℤ)) := by
  have all : ∀ i ∈ tx.inputs, i.value = 0 ∧ i.witnessScriptCode = none := by
    unfold deserialize at h
    obtain ⟨⟨_, _⟩, _, h⟩ := Res.bind_eq_ok.mp h
    obtain ⟨⟨_, _⟩, _, h⟩ := Res.bind_eq_ok.mp h
    dsimp only at h
    split at h
    · cases h
    obtain ⟨⟨_, _⟩, _, h⟩ := Res.bind_eq_ok.mp h
    dsimp only at h
    split at h
    · cases h
    obtain ⟨⟨ins, b1⟩, hi, h⟩ := Res.bind_eq_ok.mp h
    obtain ⟨⟨outs, _⟩, _, h⟩ := Res.bind_eq_ok.mp h
    obtain ⟨⟨ins', _⟩, hw, h⟩ := Res.bind_eq_ok.mp h
    obtain ⟨⟨_, _⟩, _, h⟩ := Res.bind_eq_ok.mp h
    cases h
    refine readWitnesses_all (fun i w hi => hi) _ _ _ _ hw ?_
    unfold readCounted at hi
    obtain ⟨⟨n, b⟩, _, hi⟩ := Res.bind_eq_ok.mp hi
    dsimp only at hi
    split at hi
    · cases hi; intro i hi; cases hi
    split at hi
    · cases hi
    · exact readMany_all (fun b x b' e => ⟨(readInput_blank e).1, (readInput_blank e).2.1⟩) _ _ _ _ hi
  have hn : hasWitness tx = false := by
    unfold hasWitness
    rw [List.any_eq_false]
    intro i hi
    unfold TxIn.hasWitness
    rw [(all i hi).2]
    simp
  refine ⟨fun i hi => (all i hi).2, by unfold witnessSize; rw [hn]; rfl, ?_⟩
  intro hs
  unfold outputTotal at hs
  have z : tx.inputs.foldl (fun (a : UInt64) i => a + i.value) 0 = 0 := by
    revert all
    generalize tx.inputs = l
    intro all
    induction l with
    | nil => rfl
    | cons i l ih =>
      rw [List.foldl_cons, (all i (by simp)).1]
      exact ih fun i hi => all i (by simp [hi])
  have o : ∀ (l : List TxOut) (a : UInt64), a.toNat + (l.map fun o => o.value.toNat).sum < 2^63 →
      (l.foldl (fun a o => a + o.value) a).toNat = a.toNat + (l.map fun o => o.value.toNat).sum := by
    intro l
    induction l with
    | nil => intro a _; simp
    | cons x l ih =>
      intro a ha
      simp only [List.map_cons, List.sum_cons] at ha
      have e : (a + x.value).toNat = a.toNat + x.value.toNat := by
        rw [UInt64.toNat_add, Nat.mod_eq_of_lt (by omega)]
      rw [List.foldl_cons, ih _ (by rw [e]; omega), e, List.map_cons, List.sum_cons]
      omega
  have o := o tx.outputs 0 (by simpa using hs)
  unfold fees intOfU64
  rw [z]
  generalize tx.outputs.foldl (fun (a : UInt64) o => a + o.value) 0 = v at o ⊢
  have ev : v.toNat = outputTotal tx := by simpa [outputTotal] using o
  have hs' : v.toNat < 2^63 := by rw [ev]; exact hs
  rw [← ev]
  have hv := v.toNat_lt
  rw [UInt64.toNat_sub]
  unfold wrap64
  simp only [UInt64.toNat_zero]
  omega

/-! ### examples -/

def exTexts : Texts := ⟨fun _ => [], fun _ _ => ascii "0.00".toList, fun _ _ => ascii "1.00".toList⟩

/-- A transaction with a P2WPKH coin, not signed. -/
def exWitnessCalls : List (Builder.Call UInt8) :=
  [.addCoin (some { exCoin 10000 with script := ascii ("0014" ++ "1111111111111111111111111111111111111111").toList }),
   .to (some ⟨.p2pkh, List.replicate 20 3⟩) 6000, .sendFees 500, .setChange (some exAddr)]

example : (@Builder.build _ modHashes toyEcdsa (Builder.run exWitnessCalls)).bind (fun tx => .ok tx.inputs.length) = .ok 1 ∧
    (Builder.run exWitnessCalls).sign = false ∧
    (@Builder.build _ modHashes toyEcdsa (Builder.run exWitnessCalls)).bind (TxText.toString exTexts fun _ => []) = .panic := by
  decide +kernel

example : AllFit exTx ∧ ¬ ∃ i ∈ exTx.inputs, i.witnessScriptCode ≠ none ∧ i.witness = [] := by
  unfold AllFit exTx; decide +kernel

/-- The text of a transaction; of the witness of two items the first is shown. -/
example : TxText.toString exTexts (fun k => [UInt8.ofNat k, 0xff]) { exTx with outputs := [⟨5000, [0x6a, 0x01, 0x02]⟩, ⟨70, [0x51]⟩] } =
    .ok (List.intercalate [0x0a] ([
      "\n{",
      "  \"inputs\":[",
      "    {",
      "      \"hash\":\t\"aaaaaaaaaaaaaaaaaaaaaaaaaaaaaaaaaaaaaaaaaaaaaaaaaaaaaaaaaaaaaaaa\",",
      "      \"n\":\t1,",
      "      \"Value\":\t0,",
      "      \"rawlocking\":\t\"\",",
      "      \"finallocking\":\t\"\",",
      "      \"rawunlocking\":\t\"\",",
      "      \"script\":\t\"\",",
      "      \"sighash\":\t\"00ff\",",
      "      \"witness\":\t\"0102\",",
      "      \"scriptcode\":\t\"51\"",
      "    },",
      "    {",
      "      \"hash\":\t\"bbbbbbbbbbbbbbbbbbbbbbbbbbbbbbbbbbbbbbbbbbbbbbbbbbbbbbbbbbbbbbbb\",",
      "      \"n\":\t0,",
      "      \"Value\":\t0,",
      "      \"rawlocking\":\t\"\",",
      "      \"finallocking\":\t\"\",",
      "      \"rawunlocking\":\t\"OP_1 OP_2\",",
      "      \"script\":\t\"OP_1 OP_2\",",
      "      \"sighash\":\t\"01ff\",",
      "    }",
      "  ],",
      "  \"outputs\":[",
      "    {",
      "      \"value\":\t5000,",
      "      \"script\":\t\"OP_RETURN OP_DATA_1 02\"",
      "    },",
      "    {",
      "      \"value\":\t70,",
      "      \"script\":\t\"OP_1\"",
      "    }",
      "  ],",
      "  \"basesize\":\t116,",
      "  \"witsize\":\t6,",
      "  \"vsize\":\t117,",
      "  \"size\":\t122,",
      "  \"weight\":\t470,",
      "  \"fees\":\t-5070 sat,",
      "  \"feesperb\":\t0.00 sat/B,",
      "  \"saving\":\t1.00 %",
      "}\n"].map fun l => ascii l.toList)) := by decide +kernel

private theorem exTx_readable : AllReadable exTx := by
  have r : ∀ ts : List Token, (∀ t ∈ ts, Token.Valid t) → (encTokens ts).length < 2^62 → Readable (encTokens ts) :=
    fun ts h hl => ⟨hl, ts, h, rfl⟩
  have v : ∀ op, op ∈ [(0x51 : UInt8), 0x52, 0x6a] → Token.Valid ⟨op, []⟩ := by
    intro op h; unfold Token.Valid; revert op; decide
  have v1 : Token.Valid ⟨0x01, [0x02]⟩ := by unfold Token.Valid; decide
  refine ⟨?_, ?_⟩
  · intro i hi
    unfold exTx at hi
    simp only [List.mem_cons, List.not_mem_nil, or_false] at hi
    rcases hi with rfl | rfl
    · exact ⟨r [] (by simp) (by decide), r [] (by simp) (by decide), r [] (by simp) (by decide), by intro _ h; cases h⟩
    · refine ⟨r [] (by simp) (by decide), r [] (by simp) (by decide), r [⟨0x51, []⟩, ⟨0x52, []⟩] ?_ (by decide), by intro _ h; cases h⟩
      intro t ht
      simp only [List.mem_cons, List.not_mem_nil, or_false] at ht
      rcases ht with rfl | rfl <;> exact v _ (by decide)
  · intro o ho
    unfold exTx at ho
    simp only [List.mem_cons, List.not_mem_nil, or_false] at ho
    rcases ho with rfl
    refine r [⟨0x6a, []⟩, ⟨0x01, [0x02]⟩] ?_ (by decide)
    intro t ht
    simp only [List.mem_cons, List.not_mem_nil, or_false] at ht
    rcases ht with rfl | rfl
    · exact v _ (by decide)
    · exact v1

example : AllReadable exTx := exTx_readable

/-- Neither version, lock time, sequence numbers nor the later witness items are shown. -/
example : TxText.toString exTexts (fun _ => []) { exTx with inputs := exTx.inputs.map fun i => { i with witness := [[1, 2], [3]] } } =
    TxText.toString exTexts (fun _ => []) { exTx with
      version := 1, lockTime := 99,
      inputs := exTx.inputs.map fun i => { i with sequence := 3, witness := [[1, 2], [4]] } } := by
  decide +kernel

/-- Reading back the wire format of a transaction that pays 5000: the fee shown is -5000. -/
example : (deserialize Tx.new (serialize exTx)).bind (fun r => .ok (fees r.1, witnessSize r.1, witnessSize exTx)) = .ok (-5000, 0, 6) := by
  decide +kernel

end Toku.Props
