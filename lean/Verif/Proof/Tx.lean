import Verif.Proof.Wire
import Mathlib.Data.List.Forall2
/-
Helper lemmas about transactions.
-/
namespace Toku.Tx
open Toku.Spec Toku.Buffer Toku.Wire

theorem writeInput_data {i : TxIn} (h : i.rawUnlockingScript.length < 2^64) (b : Buffer) :
    (writeInput b i).data = b.data ++ wireIn i.hash i.index (scriptSig i) i.sequence := by
  have e : varStr (scriptSig i) = encVarBytes (scriptSig i) := by
    apply varStr_eq
    unfold scriptSig
    split
    · exact h
    · decide
  unfold writeInput wireIn
  rw [e, le4, le4]
  cases hw : i.witnessScriptCode <;> simp [TxIn.hasWitness, scriptSig, hw]

theorem writeOutput_data {o : TxOut} (h : o.script.length < 2^64) (b : Buffer) :
    (writeOutput b o).data = b.data ++ wireOut o := by
  unfold writeOutput wireOut
  rw [varStr_eq h, le8]
  simp

theorem writeInsOuts_data {tx : Transaction} (h : Encodable tx) (b : Buffer) :
    (writeInsOuts tx b).data = b.data ++ (counted (fun i => wireIn i.hash i.index (scriptSig i) i.sequence) tx.inputs
      ++ counted wireOut tx.outputs) := by
  unfold writeInsOuts
  simp only
  rw [foldl_data _ wireOut _ _ (fun o ho b => writeOutput_data (by have := h.out o ho; omega) b), writeVarInt_data,
    foldl_data _ (fun i => wireIn i.hash i.index (scriptSig i) i.sequence) _ _
      (fun i hi b => writeInput_data (by have := h.script i hi; omega) b), writeVarInt_data]
  unfold counted
  rw [compactSize_eq (by have := h.ins; omega), compactSize_eq (by have := h.outs; omega)]
  simp only [List.append_assoc]

theorem writeWitness_data {i : TxIn} (h : i.witness.length < 2^62 ∧ ∀ w ∈ i.witness, w.length < 2^62) (b : Buffer) :
    (writeWitness b i).data = b.data ++ counted varStr i.witness := by
  unfold writeWitness counted
  rw [foldl_data _ varStr _ _ (fun w hw b => by
      rw [writeVarBytes_data, varStr_eq (by have := h.2 w hw; omega)]), writeVarInt_data,
    compactSize_eq (by have := h.1; omega), List.append_assoc]

theorem serializeNoWitness_eq {tx : Transaction} (h : Encodable tx) : serializeNoWitness tx = wireLegacy tx := by
  unfold serializeNoWitness wireLegacy
  simp only
  rw [writeU32_data, writeInsOuts_data h, writeU32_data, new_data, le4, le4]
  simp only [List.append_assoc, List.nil_append]

theorem serialize_witness {tx : Transaction} (h : Encodable tx) (hw : hasWitness tx = true) :
    serialize tx = wireSegwit tx := by
  unfold serialize wireSegwit
  simp only [hw, if_true]
  rw [writeU32_data, foldl_data _ (fun i => counted varStr i.witness) _ _
      (fun i hi b => writeWitness_data (h.wit i hi) b), writeInsOuts_data h, writeU8_data, writeU8_data,
    writeU32_data, new_data, le4, le4]
  simp only [List.append_assoc, List.nil_append, List.cons_append]

theorem serialize_legacy {tx : Transaction} (hw : hasWitness tx = false) :
    serialize tx = serializeNoWitness tx := by
  unfold serialize serializeNoWitness
  simp [hw]

/-! ### Reading -/

/-- `rd` reads what `enc` writes, up to `norm`. -/
def Reads {α β : Type} (rd : Buffer → Res (β × Buffer)) (enc : α → Bytes) (norm : α → β) (ok : α → Prop) : Prop :=
  ∀ x, ok x → ∀ (b : Buffer) (t : Bytes), Rd b (enc x ++ t) → ∃ b', rd b = .ok (norm x, b') ∧ Rd b' t

theorem readMany_enc {α β : Type} {rd : Buffer → Res (β × Buffer)} {enc : α → Bytes} {norm : α → β}
    {ok : α → Prop} (hr : Reads rd enc norm ok) : ∀ (l : List α), (∀ x ∈ l, ok x) → ∀ (b : Buffer) (t : Bytes),
      Rd b (l.flatMap enc ++ t) → ∃ b', readMany rd l.length b = .ok (l.map norm, b') ∧ Rd b' t
  | [], _, b, t, h => ⟨b, rfl, by simpa using h⟩
  | x :: l, ho, b, t, h => by
    rw [List.flatMap_cons, List.append_assoc] at h
    obtain ⟨b1, e1, r1⟩ := hr x (ho x List.mem_cons_self) b _ h
    obtain ⟨b2, e2, r2⟩ := readMany_enc hr l (fun y hy => ho y (List.mem_cons_of_mem _ hy)) b1 t r1
    refine ⟨b2, ?_, r2⟩
    rw [List.length_cons, readMany, e1, Res.ok_bind]
    dsimp only
    rw [e2, Res.ok_bind]
    rfl

theorem readCounted_enc {α β : Type} {rd : Buffer → Res (β × Buffer)} {enc : α → Bytes} {norm : α → β}
    {ok : α → Prop} (hr : Reads rd enc norm ok) (size : Nat) (l : List α) (hl : l.length ≤ makeLimit size)
    (hs : l.length < 2^64) (ho : ∀ x ∈ l, ok x) (b : Buffer) (t : Bytes) (h : Rd b (counted enc l ++ t)) :
    ∃ b', readCounted size rd [] b = .ok (l.map norm, b') ∧ Rd b' t := by
  unfold counted at h
  rw [compactSize_eq hs, List.append_assoc] at h
  obtain ⟨b1, e1, r1, _⟩ := readVarInt_enc h
  obtain ⟨b2, e2, r2⟩ := readMany_enc hr l ho b1 t r1
  have hn : (UInt64.ofNat l.length).toNat = l.length := by rw [UInt64.toNat_ofNat']; omega
  refine ⟨b2, ?_, r2⟩
  unfold readCounted
  rw [e1, Res.ok_bind]
  dsimp only
  rw [hn]
  by_cases h0 : l.length = 0
  · rw [if_pos h0]
    have : l = [] := List.eq_nil_of_length_eq_zero h0
    subst this
    simp only [List.length_nil, readMany] at e2
    exact e2
  · rw [if_neg h0, if_neg (by omega), e2]

/-- What a parsed input looks like. -/
def parsedIn (i : TxIn) : TxIn :=
  { TxIn.empty with hash := i.hash, index := i.index, rawUnlockingScript := scriptSig i, sequence := i.sequence }

theorem readInput_enc : Reads readInput (fun i => wireIn i.hash i.index (scriptSig i) i.sequence) parsedIn
    (fun i => i.hash.length = 32 ∧ i.rawUnlockingScript.length < 2^64) := by
  intro i ⟨h32, hl⟩ b t h
  have hl : (scriptSig i).length < 2^64 := by
    unfold scriptSig
    split
    · exact hl
    · simp
  simp only [wireIn, le4, varStr_eq hl, List.append_assoc] at h
  obtain ⟨b1, e1, r1, _⟩ := readBytes_ok h
  rw [h32] at e1
  obtain ⟨b2, e2, r2, _⟩ := readU32_le r1
  obtain ⟨b3, e3, r3, _⟩ := readVarBytes_enc r2
  obtain ⟨b4, e4, r4, _⟩ := readU32_le r3
  refine ⟨b4, ?_, r4⟩
  unfold readInput
  rw [show ((32 : Int)) = ((32 : Nat) : Int) from rfl, e1, Res.ok_bind]
  dsimp only
  rw [e2, Res.ok_bind]
  dsimp only
  rw [e3, Res.ok_bind]
  dsimp only
  rw [e4, Res.ok_bind]
  rfl

theorem readOutput_enc : Reads readOutput wireOut id (fun o => o.script.length < 2^64) := by
  intro o hl b t h
  unfold wireOut at h
  rw [le8, varStr_eq hl, List.append_assoc] at h
  obtain ⟨b1, e1, r1, _⟩ := readU64_le h
  obtain ⟨b2, e2, r2, _⟩ := readVarBytes_enc r1
  refine ⟨b2, ?_, r2⟩
  unfold readOutput
  rw [e1, Res.ok_bind]
  dsimp only
  rw [e2, Res.ok_bind]
  rfl

theorem readVarStr_enc : Reads (fun b => b.readVarBytes) varStr id (fun w => w.length < 2^64) := by
  intro w hl b t h
  rw [varStr_eq hl] at h
  obtain ⟨b1, e1, r1, _⟩ := readVarBytes_enc h
  exact ⟨b1, e1, r1⟩

theorem readWitnesses_enc (f : TxIn → TxIn) : ∀ (l : List TxIn) (b : Buffer) (t : Bytes),
    (∀ i ∈ l, i.witness.length ≤ makeLimit 24 ∧ ∀ w ∈ i.witness, w.length < 2^64) →
    Rd b (l.flatMap (fun i => counted varStr i.witness) ++ t) →
    ∃ b', readWitnesses (l.map f) b = .ok (l.map (fun i => { f i with witness := i.witness }), b') ∧ Rd b' t
  | [], b, t, _, h => ⟨b, rfl, by simpa using h⟩
  | i :: l, b, t, ho, h => by
    rw [List.flatMap_cons, List.append_assoc] at h
    have hi := ho i List.mem_cons_self
    have hm : makeLimit 24 < 2^64 := by decide
    obtain ⟨b1, e1, r1⟩ := readCounted_enc readVarStr_enc 24 i.witness hi.1 (by omega) hi.2 b _ h
    obtain ⟨b2, e2, r2⟩ := readWitnesses_enc f l b1 t (fun y hy => ho y (List.mem_cons_of_mem _ hy)) r1
    refine ⟨b2, ?_, r2⟩
    rw [List.map_cons, readWitnesses, e1, Res.ok_bind]
    dsimp only
    rw [e2, Res.ok_bind]
    simp

theorem length_flatMap_ge {α : Type} (enc : α → Bytes) (k : Nat) : ∀ (l : List α), (∀ x ∈ l, k ≤ (enc x).length) →
    k * l.length ≤ (l.flatMap enc).length
  | [], _ => by simp
  | x :: l, h => by
    have h1 := h x List.mem_cons_self
    have h2 := length_flatMap_ge enc k l (fun y hy => h y (List.mem_cons_of_mem _ hy))
    rw [List.flatMap_cons, List.length_append, List.length_cons, Nat.mul_succ]
    omega

theorem le_length_flatMap {α : Type} (enc : α → Bytes) {l : List α} {x : α} (h : x ∈ l) :
    (enc x).length ≤ (l.flatMap enc).length := by
  obtain ⟨s, t, rfl⟩ := List.append_of_mem h
  simp
  omega

end Toku.Tx

namespace Toku.Tx
open Toku.Spec Toku.Buffer Toku.Wire

theorem deserializeNoWitness_wire {tx : Transaction} (h : Encodable tx) (hs : (wireLegacy tx).length < 2^43) :
    deserializeNoWitness new (wireLegacy tx) = .ok ({ new with
      version := tx.version, lockTime := tx.lockTime, inputs := tx.inputs.map parsedIn, outputs := tx.outputs }, []) := by
  have hin : 32 * tx.inputs.length ≤ (wireLegacy tx).length := by
    have := length_flatMap_ge (fun i : TxIn => wireIn i.hash i.index (scriptSig i) i.sequence) 32 tx.inputs
      (fun i hi => by simp [wireIn, h.hash i hi, le_length])
    unfold wireLegacy counted
    simp only [List.length_append]
    omega
  have hout : 8 * tx.outputs.length ≤ (wireLegacy tx).length := by
    have := length_flatMap_ge wireOut 8 tx.outputs (fun o ho => by simp [wireOut, le_length])
    unfold wireLegacy counted
    simp only [List.length_append]
    omega
  have hm : makeLimit 8 = 2^45 := by decide
  have hr := rd_reader (wireLegacy tx) (by omega)
  rw [← List.append_nil (wireLegacy tx)] at hr
  unfold wireLegacy at hr
  rw [le4, le4] at hr
  simp only [List.append_assoc] at hr
  unfold deserializeNoWitness
  have e0 : wireLegacy tx = (le32 tx.version ++ (counted (fun i => wireIn i.hash i.index (scriptSig i) i.sequence) tx.inputs
    ++ (counted wireOut tx.outputs ++ (le32 tx.lockTime ++ [])))) := by
    unfold wireLegacy; rw [le4, le4]; simp only [List.append_assoc, List.append_nil]
  rw [e0]
  obtain ⟨b1, e1, r1, _⟩ := readU32_le hr
  obtain ⟨b2, e2, r2⟩ := readCounted_enc readInput_enc 8 tx.inputs (by omega) (by omega)
    (fun i hi => ⟨h.hash i hi, by have := h.script i hi; omega⟩) b1 _ r1
  obtain ⟨b3, e3, r3⟩ := readCounted_enc readOutput_enc 8 tx.outputs (by omega) (by omega)
    (fun o ho => by have := h.out o ho; omega) b2 _ r2
  obtain ⟨b4, e4, r4, _⟩ := readU32_le r3
  simp only
  rw [e1, Res.ok_bind]
  dsimp only
  rw [show (new.inputs) = [] from rfl, e2, Res.ok_bind]
  dsimp only
  rw [show (new.outputs) = [] from rfl, e3, Res.ok_bind]
  dsimp only
  rw [e4, Res.ok_bind]
  simp only [r4.remaining, Res.pure_eq, List.map_id]

theorem deserialize_wire {tx : Transaction} (h : Encodable tx) (hs : (wireSegwit tx).length < 2^43) :
    deserialize new (wireSegwit tx) = .ok ({ new with
      version := tx.version, lockTime := tx.lockTime,
      inputs := tx.inputs.map (fun i => { parsedIn i with witness := i.witness }), outputs := tx.outputs }, []) := by
  have hin : 32 * tx.inputs.length ≤ (wireSegwit tx).length := by
    have := length_flatMap_ge (fun i : TxIn => wireIn i.hash i.index (scriptSig i) i.sequence) 32 tx.inputs
      (fun i hi => by simp [wireIn, h.hash i hi, le_length])
    unfold wireSegwit counted
    simp only [List.length_append]
    omega
  have hout : 8 * tx.outputs.length ≤ (wireSegwit tx).length := by
    have := length_flatMap_ge wireOut 8 tx.outputs (fun o ho => by simp [wireOut, le_length])
    unfold wireSegwit counted
    simp only [List.length_append]
    omega
  have hcs : ∀ n, 1 ≤ (compactSize n).length := by
    intro n; unfold compactSize; repeat' split
    all_goals simp
  have hwit : ∀ i ∈ tx.inputs, 1 * i.witness.length ≤ (wireSegwit tx).length := by
    intro i hi
    have h1 := length_flatMap_ge varStr 1 i.witness (fun w hw => by
      have := hcs w.length
      simp only [varStr, List.length_append]; omega)
    have h2 := le_length_flatMap (fun i : TxIn => counted varStr i.witness) hi
    have h3 : (i.witness.flatMap varStr).length ≤ (counted varStr i.witness).length := by
      unfold counted; simp only [List.length_append]; omega
    unfold wireSegwit
    simp only [List.length_append]
    omega
  have hm : makeLimit 8 = 2^45 := by decide
  have hm2 : 2^43 ≤ makeLimit 24 := by decide
  have e0 : wireSegwit tx = (le32 tx.version ++ (0 :: (1 :: (counted (fun i => wireIn i.hash i.index (scriptSig i) i.sequence) tx.inputs
    ++ (counted wireOut tx.outputs ++ (tx.inputs.flatMap (fun i => counted varStr i.witness) ++
    (le32 tx.lockTime ++ []))))))) := by
    unfold wireSegwit; rw [le4, le4]; simp only [List.append_assoc, List.append_nil, List.cons_append, List.nil_append]
  have hr := rd_reader (wireSegwit tx) (by omega)
  rw [e0] at hr ⊢
  unfold deserialize
  obtain ⟨b1, e1, r1, _⟩ := readU32_le hr
  obtain ⟨c1, f1, q1, _⟩ := readU8_ok r1
  obtain ⟨c2, f2, q2, _⟩ := readU8_ok q1
  obtain ⟨b2, e2, r2⟩ := readCounted_enc readInput_enc 8 tx.inputs (by omega) (by omega)
    (fun i hi => ⟨h.hash i hi, by have := h.script i hi; omega⟩) c2 _ q2
  obtain ⟨b3, e3, r3⟩ := readCounted_enc readOutput_enc 8 tx.outputs (by omega) (by omega)
    (fun o ho => by have := h.out o ho; omega) b2 _ r2
  obtain ⟨b5, e5, r5⟩ := readWitnesses_enc parsedIn tx.inputs b3 _ (fun i hi =>
    ⟨by have := hwit i hi; omega, fun w hw => by have := (h.wit i hi).2 w hw; omega⟩) r3
  obtain ⟨b4, e4, r4, _⟩ := readU32_le r5
  simp only
  rw [e1, Res.ok_bind]
  dsimp only
  rw [f1, Res.ok_bind]
  dsimp only
  rw [if_neg (by simp), f2, Res.ok_bind]
  dsimp only
  rw [if_neg (by simp), show (new.inputs) = [] from rfl, e2, Res.ok_bind]
  dsimp only
  rw [show (new.outputs) = [] from rfl, e3, Res.ok_bind]
  dsimp only
  rw [e5, Res.ok_bind]
  dsimp only
  rw [e4, Res.ok_bind]
  simp only [r4.remaining, Res.pure_eq, List.map_id]

/-! ### Parsing, the other way -/

/-- Whatever `rd` accepts is an encoding in the sense of `R`. -/
def Parses {α : Type} (rd : Buffer → Res (α × Buffer)) (R : Bytes → α → Prop) : Prop :=
  ∀ (b : Buffer) (r : Bytes) x b', Rd b r → rd b = .ok (x, b') → ∃ e t, r = e ++ t ∧ R e x ∧ Rd b' t

theorem bind_ok {α β : Type} {x : Res α} {f : α → Res β} {y : β} (h : x >>= f = .ok y) :
    ∃ a, x = .ok a ∧ f a = .ok y := by
  cases x with
  | ok a => exact ⟨a, rfl, h⟩
  | err e => cases h
  | panic => cases h

theorem parses_many {α : Type} {rd : Buffer → Res (α × Buffer)} {R : Bytes → α → Prop} (hp : Parses rd R) :
    ∀ n, Parses (readMany rd n) (fun e l => l.length = n ∧ IsSeq R e l)
  | 0, b, r, x, b', h, e => by
    simp only [readMany, Res.ok.injEq, Prod.mk.injEq] at e
    obtain ⟨rfl, rfl⟩ := e
    exact ⟨[], r, rfl, ⟨rfl, rfl⟩, h⟩
  | n + 1, b, r, x, b', h, e => by
    rw [readMany] at e
    obtain ⟨⟨y, b1⟩, e1, e⟩ := bind_ok e
    dsimp only at e
    obtain ⟨⟨ys, b2⟩, e2, e⟩ := bind_ok e
    simp only [Res.pure_eq, Res.ok.injEq, Prod.mk.injEq] at e
    obtain ⟨rfl, rfl⟩ := e
    obtain ⟨a, t, rfl, ha, h1⟩ := hp b r y b1 h e1
    obtain ⟨a2, t2, rfl, ⟨hl, ha2⟩, h2⟩ := parses_many hp n b1 t ys b2 h1 e2
    exact ⟨a ++ a2, t2, by rw [List.append_assoc], ⟨by rw [List.length_cons, hl], a, a2, rfl, ha, ha2⟩, h2⟩

theorem parses_counted {α : Type} {rd : Buffer → Res (α × Buffer)} {R : Bytes → α → Prop} (hp : Parses rd R)
    (size : Nat) : Parses (readCounted size rd []) (IsCounted R) := by
  intro b r x b' h e
  unfold readCounted at e
  rcases readVarInt_cases h with ⟨_, e1⟩ | ⟨e', v, t, b1, rfl, hv, e1, r1, _⟩
  · rw [e1, Res.err_bind] at e; cases e
  · rw [e1, Res.ok_bind] at e
    dsimp only at e
    by_cases h0 : v.toNat = 0
    · rw [if_pos h0] at e
      simp only [Res.ok.injEq, Prod.mk.injEq] at e
      obtain ⟨rfl, rfl⟩ := e
      exact ⟨e', t, rfl, ⟨e', [], by simp, by rw [List.length_nil, ← h0]; exact hv, rfl⟩, r1⟩
    · rw [if_neg h0] at e
      by_cases h1 : v.toNat > makeLimit size
      · rw [if_pos h1] at e; cases e
      · rw [if_neg h1] at e
        obtain ⟨a, t2, rfl, ⟨hl, ha⟩, h2⟩ := parses_many hp _ b1 t x b' r1 e
        exact ⟨e' ++ a, t2, by rw [List.append_assoc], ⟨e', a, rfl, by rw [hl]; exact hv, ha⟩, h2⟩

theorem parses_u32 : Parses (fun b => b.readU32) (fun e v => e = le 4 v.toNat) := by
  intro b r x b' h e
  rcases readU32_cases h with ⟨_, e1⟩ | ⟨v, t, b1, hr, e1, r1, _⟩
  · simp only [e1] at e; cases e
  · simp only [e1, Res.ok.injEq, Prod.mk.injEq] at e
    obtain ⟨rfl, rfl⟩ := e
    exact ⟨_, t, hr, (le4 v).symm, r1⟩

theorem parses_u64 : Parses (fun b => b.readU64) (fun e v => e = le 8 v.toNat) := by
  intro b r x b' h e
  rcases readU64_cases h with ⟨_, e1⟩ | ⟨v, t, b1, hr, e1, r1, _⟩
  · simp only [e1] at e; cases e
  · simp only [e1, Res.ok.injEq, Prod.mk.injEq] at e
    obtain ⟨rfl, rfl⟩ := e
    exact ⟨_, t, hr, (le8 v).symm, r1⟩

theorem parses_varBytes : Parses (fun b => b.readVarBytes) IsVarStr := by
  intro b r x b' h e
  rcases readVarBytes_cases h with ⟨_, e1⟩ | ⟨e', t, n, rfl, hn, hc⟩
  · simp only [e1] at e; cases e
  · rcases hc with ⟨_, e1⟩ | ⟨_, _, e1⟩ | ⟨y, t', b1, rfl, hl, e1, r1, _⟩
    · simp only [e1] at e; cases e
    · simp only [e1] at e; cases e
    · simp only [e1, Res.ok.injEq, Prod.mk.injEq] at e
      obtain ⟨rfl, rfl⟩ := e
      exact ⟨e' ++ y, t', by rw [List.append_assoc], ⟨e', rfl, by rw [hl]; exact hn⟩, r1⟩

theorem parses_bytes (l : Nat) (hl : l < 2^62) : Parses (fun b => b.readBytes l) (fun e v => e = v ∧ v.length = l) := by
  intro b r x b' h e
  have hs := h.seek_lt
  rcases readBytes_cases h l (by omega) with ⟨_, e1⟩ | ⟨v, t, b1, hr, hl, e1, r1, _⟩
  · simp only [e1] at e; cases e
  · simp only [e1, Res.ok.injEq, Prod.mk.injEq] at e
    obtain ⟨rfl, rfl⟩ := e
    exact ⟨_, t, hr, ⟨rfl, hl⟩, r1⟩

/-- Parsed inputs have no script code and no witness. -/
def Bare (i : TxIn) : Prop := i.witnessScriptCode = none ∧ i.witness = []

theorem parses_input : Parses readInput (fun e i => IsWireIn e i ∧ Bare i) := by
  intro b r x b' h e
  unfold readInput at e
  obtain ⟨⟨v1, b1⟩, e1, e⟩ := bind_ok e
  dsimp only at e
  obtain ⟨⟨v2, b2⟩, e2, e⟩ := bind_ok e
  dsimp only at e
  obtain ⟨⟨v3, b3⟩, e3, e⟩ := bind_ok e
  dsimp only at e
  obtain ⟨⟨v4, b4⟩, e4, e⟩ := bind_ok e
  simp only [Res.pure_eq, Res.ok.injEq, Prod.mk.injEq] at e
  obtain ⟨rfl, rfl⟩ := e
  obtain ⟨a1, t1, rfl, ⟨rfl, hl⟩, r1⟩ := parses_bytes 32 (by decide) b r v1 b1 h e1
  obtain ⟨a2, t2, rfl, rfl, r2⟩ := parses_u32 b1 t1 v2 b2 r1 e2
  obtain ⟨a3, t3, rfl, hv, r3⟩ := parses_varBytes b2 t2 v3 b3 r2 e3
  obtain ⟨a4, t4, rfl, rfl, r4⟩ := parses_u32 b3 t3 v4 b4 r3 e4
  refine ⟨a1 ++ le 4 v2.toNat ++ a3 ++ le 4 v4.toNat, t4, by simp only [List.append_assoc],
    ⟨⟨a3, rfl, hl, ?_⟩, rfl, rfl⟩, r4⟩
  exact hv

theorem parses_output : Parses readOutput IsWireOut := by
  intro b r x b' h e
  unfold readOutput at e
  obtain ⟨⟨v1, b1⟩, e1, e⟩ := bind_ok e
  dsimp only at e
  obtain ⟨⟨v2, b2⟩, e2, e⟩ := bind_ok e
  simp only [Res.pure_eq, Res.ok.injEq, Prod.mk.injEq] at e
  obtain ⟨rfl, rfl⟩ := e
  obtain ⟨a1, t1, rfl, rfl, r1⟩ := parses_u64 b r v1 b1 h e1
  obtain ⟨a2, t2, rfl, hv, r2⟩ := parses_varBytes b1 t1 v2 b2 r1 e2
  exact ⟨le 8 v1.toNat ++ a2, t2, by simp only [List.append_assoc], ⟨a2, rfl, hv⟩, r2⟩

theorem isSeq_and {α : Type} {R : Bytes → α → Prop} {P : α → Prop} : ∀ (l : List α) (e : Bytes),
    IsSeq (fun e x => R e x ∧ P x) e l → IsSeq R e l ∧ ∀ x ∈ l, P x
  | [], e, h => ⟨h, by simp⟩
  | x :: l, e, ⟨a, t, he, ⟨hr, hp⟩, hs⟩ => by
    obtain ⟨h1, h2⟩ := isSeq_and l t hs
    refine ⟨⟨a, t, he, hr, h1⟩, ?_⟩
    intro y hy
    rcases List.mem_cons.mp hy with rfl | hy
    · exact hp
    · exact h2 y hy

theorem parses_witnesses (l : List TxIn) : Parses (readWitnesses l) (fun e l' =>
    IsSeq (fun e (i : TxIn) => IsCounted IsVarStr e i.witness) e l' ∧
    l' = List.zipWith (fun i w => { i with witness := w }) l (l'.map (·.witness)) ∧ l'.length = l.length) := by
  induction l with
  | nil =>
    intro b r x b' h e
    simp only [readWitnesses, Res.ok.injEq, Prod.mk.injEq] at e
    obtain ⟨rfl, rfl⟩ := e
    exact ⟨[], r, rfl, ⟨by simp [IsSeq], by simp, by simp⟩, h⟩
  | cons i l ih =>
    intro b r x b' h e
    rw [readWitnesses] at e
    obtain ⟨⟨y, b1⟩, e1, e⟩ := bind_ok e
    dsimp only at e
    obtain ⟨⟨ys, b2⟩, e2, e⟩ := bind_ok e
    simp only [Res.pure_eq, Res.ok.injEq, Prod.mk.injEq] at e
    obtain ⟨hx, rfl⟩ := e
    obtain ⟨a, t, rfl, ha, h1⟩ := parses_counted parses_varBytes 24 b r y b1 h e1
    obtain ⟨a2, t2, rfl, ⟨hs, hz, hl⟩, h2⟩ := ih b1 t ys b2 h1 e2
    refine ⟨a ++ a2, t2, by rw [List.append_assoc], ⟨?_, ?_, ?_⟩, h2⟩
    · rw [← hx]; exact ⟨a, a2, rfl, ha, hs⟩
    · rw [← hx, List.map_cons, List.zipWith_cons_cons, ← hz]
    · rw [← hx, List.length_cons, List.length_cons, hl]

end Toku.Tx
