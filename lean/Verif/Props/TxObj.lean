import Verif.Proof.TxObj
import Verif.Props.SigHash
/-
Property C115: what a failed Deserialize leaves in the object.
-/
namespace Toku.Props
open Toku Toku.Spec Toku.Tx Toku.Buffer

/-! ### the object and the transaction in it -/

/-- **C115.** On an object without nil pointers the methods do what the functions on transactions do: they end the same way,
and where they succeed the object holds the transaction. -/
theorem C115_same (tx : Transaction) (data : Bytes) :
    SameRead ((Obj.of tx).deserialize data) (deserialize tx data) ∧
    SameRead ((Obj.of tx).deserializeNoWitness data) (deserializeNoWitness tx data) :=
  ⟨Obj.deserialize_same tx data, Obj.deserializeNoWitness_same tx data⟩

example : SameRead ((Obj.of Tx.new).deserializeNoWitness [1, 0, 0, 0, 0, 0, 3, 0, 0, 0, 9])
    (.ok ({ Tx.new with version := 1, lockTime := 3 }, [9])) := by
  have h := (C115_same Tx.new [1, 0, 0, 0, 0, 0, 3, 0, 0, 0, 9]).2
  have e : deserializeNoWitness Tx.new [1, 0, 0, 0, 0, 0, 3, 0, 0, 0, 9] =
    .ok ({ Tx.new with version := 1, lockTime := 3 }, [9]) := by decide +kernel
  rw [e] at h
  exact h

private theorem fits_of {tx : Transaction} (h : Encodable tx)
    (hi : 32 * tx.inputs.length < 2^43) (ho : 8 * tx.outputs.length < 2^43)
    (hw : ∀ i ∈ tx.inputs, i.witness.length < 2^43) : Obj.Fits tx := by
  have hm : makeLimit 8 = 2^45 := by decide
  have hm2 : 2^43 ≤ makeLimit 24 := by decide
  exact ⟨h, by omega, by omega, fun i hi => by have := hw i hi; omega⟩

private theorem ins_len {tx : Transaction} (h : Encodable tx) :
    32 * tx.inputs.length ≤ (tx.inputs.flatMap fun i => wireIn i.hash i.index (scriptSig i) i.sequence).length :=
  length_flatMap_ge _ 32 tx.inputs (fun i hi => by simp [wireIn, h.hash i hi, Wire.le_length])

private theorem outs_len (tx : Transaction) : 8 * tx.outputs.length ≤ (tx.outputs.flatMap wireOut).length :=
  length_flatMap_ge wireOut 8 tx.outputs (fun o _ => by simp [wireOut, Wire.le_length])

private theorem fits_legacy {tx : Transaction} (h : Encodable tx) (hw : ∀ i ∈ tx.inputs, i.witness = [])
    (hs : (wireLegacy tx).length < 2^43) : Obj.Fits tx := by
  have h1 := ins_len h
  have h2 := outs_len tx
  unfold wireLegacy at hs
  simp only [List.length_append, Obj.counted_length] at hs
  exact fits_of h (by omega) (by omega) (fun i hi => by rw [hw i hi]; simp)

private theorem fits_segwit {tx : Transaction} (h : Encodable tx) (hs : (wireSegwit tx).length < 2^43) : Obj.Fits tx := by
  have h1 := ins_len h
  have h2 := outs_len tx
  unfold wireSegwit at hs
  simp only [List.length_append, Obj.counted_length] at hs
  refine fits_of h (by omega) (by omega) (fun i hi => ?_)
  have h3 := length_flatMap_ge varStr 1 i.witness (fun w _ => by
    have := Obj.compactSize_pos w.length
    simp only [varStr, List.length_append]; omega)
  have h4 := le_length_flatMap (fun i : TxIn => counted varStr i.witness) hi
  rw [Obj.counted_length] at h4
  omega

/-! ### exactly what is left -/

/-- **C115.** What the first `m` bytes of a transaction without witnesses leave in an object, for every object and every `m` less
than all: an error; the version, and the inputs and outputs as far as they are whole, the rest of the new slices being nil; a zero
version or lock time where that field is what is cut; everything not reached as it was. -/
theorem C115_left_legacy (tx : Transaction) (h : Encodable tx) (hw : ∀ i ∈ tx.inputs, i.witness = [])
    (hs : (wireLegacy tx).length < 2^43) (m : ℕ) (hm : m < (wireLegacy tx).length) (o : Obj) :
    o.deserializeNoWitness ((wireLegacy tx).take m) = (leftLegacy tx m o, .err .bufferShort) :=
  Obj.cut_legacy (fits_legacy h hw hs) (by omega) m hm o

/-- two inputs, one of them with a witness, and two outputs -/
private def cutTx : Transaction :=
  { Tx.new with
    version := 2, lockTime := 7
    inputs := [{ TxIn.empty with hash := List.replicate 32 1, index := 3, rawUnlockingScript := [0x51], sequence := 9 },
      { TxIn.empty with hash := List.replicate 32 2, index := 4, sequence := 8 }]
    outputs := [⟨900, [0x51]⟩, ⟨800, [0x52, 0x53]⟩] }

private theorem cutTx_ok : Encodable cutTx ∧ (∀ i ∈ cutTx.inputs, i.witness = []) :=
  ⟨⟨by decide, by decide, by decide, by decide, by decide, by decide⟩, by decide⟩

/-- cut in the second input: the first is there, the second is nil, version read, the rest as it was -/
example : (wireLegacy cutTx).length = 114 ∧ leftLegacy cutTx 50 (Obj.of { Tx.new with lockTime := 5 }) =
    { Obj.of { Tx.new with lockTime := 5 } with version := 2, inputs := [some (bareIn cutTx.inputs[0]), none] } := by
  constructor <;> decide +kernel

example : (Obj.of Tx.new).deserializeNoWitness ((wireLegacy cutTx).take 50) = (leftLegacy cutTx 50 (Obj.of Tx.new), .err .bufferShort) :=
  C115_left_legacy cutTx cutTx_ok.1 cutTx_ok.2 (by decide +kernel) 50 (by decide +kernel) _

/-- **C115.** The same for the witness format, of transactions with inputs. -/
theorem C115_left_segwit (tx : Transaction) (h : Encodable tx) (hne : tx.inputs ≠ []) (hs : (wireSegwit tx).length < 2^43)
    (m : ℕ) (hm : m < (wireSegwit tx).length) (o : Obj) :
    o.deserialize ((wireSegwit tx).take m) = (leftSegwit tx m o, .err .bufferShort) :=
  Obj.cut_segwit (fits_segwit h hs) hne (by omega) m hm o

/-- `cutTx` with a witness of two items on its second input -/
private def cutWit : Transaction :=
  { cutTx with inputs := [cutTx.inputs[0], { cutTx.inputs[1] with witness := [[5, 6], [7]] }] }

private theorem cutWit_ok : Encodable cutWit ∧ cutWit.inputs ≠ [] :=
  ⟨⟨by decide, by decide, by decide, by decide, by decide, by decide⟩, by decide⟩

/-- cut in the second item of the witness: it is left empty, and the lock time is the old one -/
example : (leftSegwit cutWit 118 (Obj.of { Tx.new with lockTime := 5 })) =
    { Obj.of { cutWit with lockTime := 5 } with
      inputs := [some (bareIn cutWit.inputs[0]), some { bareIn cutWit.inputs[1] with witness := [[5, 6], []] }] } := by
  decide +kernel

example : (Obj.of Tx.new).deserialize ((wireSegwit cutWit).take 118) = (leftSegwit cutWit 118 (Obj.of Tx.new), .err .bufferShort) :=
  C115_left_segwit cutWit cutWit_ok.1 cutWit_ok.2 (by decide +kernel) 118 (by decide +kernel) _

/-! ### what can be called afterwards -/

private theorem whole_lt {α : Type} (enc : α → Bytes) : ∀ (l : List α) (m : ℕ), m < (l.flatMap enc).length →
    (whole enc l m).length < l.length
  | [], m, h => by simp at h
  | x :: l, m, h => by
    rw [List.flatMap_cons, List.length_append] at h
    rw [whole]
    split_ifs with c
    · have := whole_lt enc l (m - (enc x).length) (by omega)
      simp only [List.length_cons]
      omega
    · simp

private theorem slots_nil {α β : Type} (enc : α → Bytes) (norm : α → β) (l : List α) (m : ℕ) (h : m < (l.flatMap enc).length) :
    ∃ l' : List α, ∃ r, slots enc norm l m = l'.map (fun x => some (norm x)) ++ none :: r := by
  have := whole_lt enc l m h
  refine ⟨whole enc l m, List.replicate (l.length - (whole enc l m).length - 1) none, ?_⟩
  unfold slots
  rw [show l.length - (whole enc l m).length = (l.length - (whole enc l m).length - 1) + 1 by omega, List.replicate_succ]
  rfl

private theorem derefs_nil {α β : Type} (f : α → β) : ∀ (l : List α) (r : List (Option β)),
    Obj.derefs (l.map (fun x => some (f x)) ++ none :: r) = .panic
  | [], _ => rfl
  | x :: l, r => by
    rw [List.map_cons, List.cons_append, Obj.derefs, derefs_nil f l r]
    rfl

private theorem hasWitness_nil : ∀ (l : List TxIn) (r : List (Option TxIn)),
    Obj.hasWitness.loop (l.map (fun i => some (bareIn i)) ++ none :: r) = .panic
  | [], _ => rfl
  | i :: l, r => by
    rw [List.map_cons, List.cons_append, Obj.hasWitness.loop, if_neg (by simp [TxIn.hasWitness, bareIn, TxIn.empty]), hasWitness_nil l r]

/-- every method that looks at the inputs or at the outputs panics -/
def Crashes [Hashes] (o : Obj) : Prop :=
  o.serialize = .panic ∧ o.serializeNoWitness = .panic ∧ o.txHash = .panic ∧ o.baseSize = .panic ∧ o.fees = .panic

private theorem crashes_of_load [Hashes] {o : Obj} (h : o.load = .panic) : Crashes o := by
  refine ⟨?_, ?_, ?_, ?_, ?_⟩
  · unfold Obj.serialize
    cases hw : o.hasWitness with
    | ok w => rw [Res.ok_bind, h, Res.panic_bind]
    | panic => rfl
    | err e =>
      exfalso
      have : ∀ l, Obj.hasWitness.loop l ≠ .err e := by
        intro l
        induction l with
        | nil => simp [Obj.hasWitness.loop]
        | cons x l ih =>
          cases x with
          | none => simp [Obj.hasWitness.loop]
          | some x =>
            rw [Obj.hasWitness.loop]
            split_ifs
            · simp
            · exact ih
      exact this _ hw
  · unfold Obj.serializeNoWitness; rw [h, Res.panic_bind]
  · unfold Obj.txHash Obj.serializeNoWitness; rw [h, Res.panic_bind, Res.panic_bind]
  · unfold Obj.baseSize; rw [h, Res.panic_bind]
  · unfold Obj.fees; rw [h, Res.panic_bind]

private theorem load_ins {o : Obj} (h : Obj.derefs o.inputs = .panic) : o.load = .panic := by
  unfold Obj.load; rw [h, Res.panic_bind]

private theorem derefs_err {α : Type} (e : Err) : ∀ l : List (Option α), Obj.derefs l ≠ .err e
  | [] => by simp [Obj.derefs]
  | none :: _ => by simp [Obj.derefs]
  | some x :: l => by
    rw [Obj.derefs]
    have := derefs_err e l
    cases h : Obj.derefs l with
    | ok r => simp
    | panic => simp
    | err e' => rw [h] at this; simpa using this

private theorem load_outs {o : Obj} (h : Obj.derefs o.outputs = .panic) : o.load = .panic := by
  unfold Obj.load
  cases hi : Obj.derefs o.inputs with
  | ok r => rw [Res.ok_bind, h, Res.panic_bind]
  | panic => rfl
  | err e => exact absurd hi (derefs_err e _)

private theorem leftIns_nil (s : ℕ) (tx : Transaction) (m : ℕ) (old : List (Option TxIn)) (h1 : insStart s tx ≤ m)
    (h2 : m < insEnd s tx) : ∃ l : List TxIn, ∃ r, leftIns s tx m old = l.map (fun i => some (bareIn i)) ++ none :: r := by
  have hne : ¬ (m < insStart s tx ∨ tx.inputs = []) := by
    rintro (h | h)
    · omega
    · unfold insEnd at h2
      rw [h] at h2
      simp at h2
      omega
  unfold leftIns
  rw [if_neg hne]
  exact slots_nil _ _ _ _ (by unfold insEnd at h2; omega)

private theorem leftOuts_nil (s : ℕ) (tx : Transaction) (m : ℕ) (old : List (Option TxOut)) (h1 : outsStart s tx ≤ m)
    (h2 : m < outsEnd s tx) : ∃ l : List TxOut, ∃ r, leftOuts s tx m old = l.map (fun o => some (id o)) ++ none :: r := by
  have hne : ¬ (m < outsStart s tx ∨ tx.outputs = []) := by
    rintro (h | h)
    · omega
    · unfold outsEnd at h2
      rw [h] at h2
      simp at h2
      omega
  unfold leftOuts
  rw [if_neg hne]
  exact slots_nil _ _ _ _ (by unfold outsEnd at h2; omega)

/-- **C115 (negation).** A transaction cut anywhere in its inputs, read into any object, leaves an object on which HasWitness,
Serialize, SerializeNoWitness, Hash, BaseSize and Fees panic. -/
theorem C115_negation [Hashes] (tx : Transaction) (h : Encodable tx) (hw : ∀ i ∈ tx.inputs, i.witness = [])
    (hs : (wireLegacy tx).length < 2^43) (m : ℕ) (h1 : insStart 4 tx ≤ m) (h2 : m < insEnd 4 tx) (o : Obj) :
    let r := o.deserializeNoWitness ((wireLegacy tx).take m)
    r.2 = .err .bufferShort ∧ r.1.hasWitness = .panic ∧ Crashes r.1 := by
  have hl : insEnd 4 tx ≤ (wireLegacy tx).length := by
    unfold wireLegacy
    rw [Obj.insEnd_eq]
    simp only [List.length_append, Wire.le_length]
    omega
  have e := C115_left_legacy tx h hw hs m (by omega) o
  obtain ⟨l, r, hl⟩ := leftIns_nil 4 tx m o.inputs h1 h2
  have hi : (leftLegacy tx m o).inputs = l.map (fun i => some (bareIn i)) ++ none :: r := hl
  dsimp only
  rw [e]
  refine ⟨rfl, ?_, crashes_of_load (load_ins ?_)⟩
  · unfold Obj.hasWitness
    rw [hi, hasWitness_nil]
  · rw [hi, derefs_nil]

example : insStart 4 cutTx = 5 ∧ insEnd 4 cutTx = 88 := by constructor <;> decide +kernel
example [Hashes] : ((Obj.of cutTx).deserializeNoWitness ((wireLegacy cutTx).take 5)).1.serialize = .panic :=
  (C115_negation cutTx cutTx_ok.1 cutTx_ok.2 (by decide +kernel) 5 (by decide +kernel) (by decide +kernel) _).2.2.1

/-- **C115 (negation).** The same in the witness format. -/
theorem C115_negation_segwit [Hashes] (tx : Transaction) (h : Encodable tx)
    (hs : (wireSegwit tx).length < 2^43) (m : ℕ) (h1 : insStart 6 tx ≤ m) (h2 : m < insEnd 6 tx) (o : Obj) :
    let r := o.deserialize ((wireSegwit tx).take m)
    r.2 = .err .bufferShort ∧ r.1.hasWitness = .panic ∧ Crashes r.1 := by
  have hne : tx.inputs ≠ [] := by
    intro h
    unfold insEnd at h2
    rw [h] at h2
    simp at h2
    omega
  have hl : insEnd 6 tx ≤ (wireSegwit tx).length := by
    unfold wireSegwit
    rw [Obj.insEnd_eq]
    simp only [List.length_append, Wire.le_length, List.length_cons, List.length_nil]
    omega
  have ho : insEnd 6 tx ≤ outsEnd 6 tx := by unfold outsEnd outsStart; omega
  have e := C115_left_segwit tx h hne hs m (by omega) o
  obtain ⟨l, r, hl⟩ := leftIns_nil 6 tx m o.inputs h1 h2
  have hi : (leftSegwit tx m o).inputs = l.map (fun i => some (bareIn i)) ++ none :: r := by
    unfold leftSegwit
    dsimp only
    rw [if_pos (by omega), hl]
  dsimp only
  rw [e]
  refine ⟨rfl, ?_, crashes_of_load (load_ins ?_)⟩
  · unfold Obj.hasWitness
    rw [hi, hasWitness_nil]
  · rw [hi, derefs_nil]

example [Hashes] : ((Obj.of cutWit).deserialize ((wireSegwit cutWit).take 60)).1.txHash = .panic :=
  (C115_negation_segwit cutWit cutWit_ok.1 (by decide +kernel) 60 (by decide +kernel) (by decide +kernel) _).2.2.2.2.1

/-- **C115 (negation).** A transaction cut anywhere in its outputs leaves an object that cannot be serialized either. -/
theorem C115_negation_outputs [Hashes] (tx : Transaction) (h : Encodable tx) (hw : ∀ i ∈ tx.inputs, i.witness = [])
    (hs : (wireLegacy tx).length < 2^43) (m : ℕ) (h1 : outsStart 4 tx ≤ m) (h2 : m < outsEnd 4 tx) (o : Obj) :
    let r := o.deserializeNoWitness ((wireLegacy tx).take m)
    r.2 = .err .bufferShort ∧ Crashes r.1 := by
  have hl : outsEnd 4 tx ≤ (wireLegacy tx).length := by
    unfold wireLegacy
    rw [Obj.outsEnd_eq, Obj.insEnd_eq]
    simp only [List.length_append, Wire.le_length]
    omega
  have e := C115_left_legacy tx h hw hs m (by omega) o
  obtain ⟨l, r, hl⟩ := leftOuts_nil 4 tx m o.outputs h1 h2
  have hi : (leftLegacy tx m o).outputs = l.map (fun i => some (id i)) ++ none :: r := hl
  dsimp only
  rw [e]
  refine ⟨rfl, crashes_of_load (load_outs ?_)⟩
  rw [hi, derefs_nil]

example : outsStart 4 cutTx = 89 ∧ outsEnd 4 cutTx = 110 := by constructor <;> decide +kernel
example [Hashes] : ((Obj.of cutTx).deserializeNoWitness ((wireLegacy cutTx).take 100)).1.fees = .panic :=
  (C115_negation_outputs cutTx cutTx_ok.1 cutTx_ok.2 (by decide +kernel) 100 (by decide +kernel) (by decide +kernel) _).2.2.2.2.2

/-- **C115 (negation).** A nil input outlives a later read that succeeds: the bytes of a transaction without inputs and outputs,
read into any object, give no error and leave its inputs and outputs as they are. -/
theorem C115_negation_later [Hashes] (t : Transaction) (hi : t.inputs = []) (ho : t.outputs = []) (o : Obj) :
    o.deserializeNoWitness (wireLegacy t) = ({ o with version := t.version, lockTime := t.lockTime }, .ok []) ∧
    (none ∈ o.inputs → Crashes (o.deserializeNoWitness (wireLegacy t)).1) := by
  have hm : makeLimit 8 = 2^45 := by decide
  have e0 : wireLegacy t = (le32 t.version ++ (counted (fun i : TxIn => wireIn i.hash i.index (scriptSig i) i.sequence) t.inputs
    ++ (counted wireOut t.outputs ++ (le32 t.lockTime ++ [])))) := by
    unfold wireLegacy; rw [Wire.le4, Wire.le4]; simp only [List.append_assoc, List.append_nil]
  have hl : (wireLegacy t).length < 2^62 := by
    rw [e0, hi, ho]
    simp [counted, compactSize, le32]
  have key : o.deserializeNoWitness (wireLegacy t) = ({ o with version := t.version, lockTime := t.lockTime }, .ok []) := by
    have hr := rd_reader (wireLegacy t) hl
    unfold Obj.deserializeNoWitness Obj.readVersion
    generalize reader (wireLegacy t) = b at hr
    rw [e0] at hr
    obtain ⟨b1, e1, r1, _⟩ := readU32_le hr
    obtain ⟨b2, e2, r2⟩ := Obj.readSlots_enc readInput_enc t.inputs (by rw [hi]; simp) 8 (by rw [hi]; simp) (by rw [hi]; simp)
      o.inputs b1 _ r1
    obtain ⟨b3, e3, r3⟩ := Obj.readSlots_enc readOutput_enc t.outputs (by rw [ho]; simp) 8 (by rw [ho]; simp) (by rw [ho]; simp)
      o.outputs b2 _ r2
    obtain ⟨b4, e4, r4, _⟩ := readU32_le r3
    rw [if_pos hi] at e2
    rw [if_pos ho] at e3
    rw [e1, Obj.onRes_ok]
    unfold Obj.readBody Obj.readIns
    dsimp only
    rw [e2, Obj.andThen_ok]
    unfold Obj.readOuts
    dsimp only
    rw [e3, Obj.andThen_ok]
    unfold Obj.readLockTime
    rw [e4, Obj.onRes_ok]
    dsimp only
    rw [r4.remaining]
  refine ⟨key, fun hn => ?_⟩
  rw [key]
  refine crashes_of_load (load_ins ?_)
  have : ∀ l : List (Option TxIn), none ∈ l → Obj.derefs l = .panic := by
    intro l
    induction l with
    | nil => simp
    | cons x l ih =>
      intro h
      cases x with
      | none => rfl
      | some x =>
        rw [Obj.derefs, ih (by simpa using h), Res.panic_bind]
  exact this _ hn

example [Hashes] : Crashes (({ Obj.of Tx.new with inputs := [none] } : Obj).deserializeNoWitness (wireLegacy Tx.new)).1 :=
  (C115_negation_later Tx.new rfl rfl _).2 (by simp)

/-! ### what is not touched, and recovery -/

private theorem readLockTime_keeps (o : Obj) (b : Buffer) : (Obj.readLockTime o b).1.hashPrevouts = o.hashPrevouts ∧
    (Obj.readLockTime o b).1.hashSequence = o.hashSequence ∧ (Obj.readLockTime o b).1.hashOutputs = o.hashOutputs ∧
    (Obj.readLockTime o b).1.version = o.version ∧
    (∀ e, (Obj.readLockTime o b).2 = .err e → (Obj.readLockTime o b).1.lockTime = o.lockTime ∨ (Obj.readLockTime o b).1.lockTime = 0) := by
  unfold Obj.readLockTime
  generalize b.readU32 = x
  cases x with
  | ok p => exact ⟨rfl, rfl, rfl, rfl, fun e h => nomatch h⟩
  | err e => exact ⟨rfl, rfl, rfl, rfl, fun _ _ => .inr rfl⟩
  | panic => exact ⟨rfl, rfl, rfl, rfl, fun _ h => nomatch h⟩

/-- the digest caches and the version are those of `o`, and after an error the lock time is that of `o` or zero -/
private def Kept (o : Obj) (r : Obj × Res Bytes) : Prop :=
  r.1.hashPrevouts = o.hashPrevouts ∧ r.1.hashSequence = o.hashSequence ∧ r.1.hashOutputs = o.hashOutputs ∧
  r.1.version = o.version ∧ (∀ e, r.2 = .err e → r.1.lockTime = o.lockTime ∨ r.1.lockTime = 0)

private theorem kept_andThen {o o' : Obj} {x : Res Buffer} {k : Obj → Buffer → Obj × Res Bytes}
    (h1 : o'.hashPrevouts = o.hashPrevouts) (h2 : o'.hashSequence = o.hashSequence) (h3 : o'.hashOutputs = o.hashOutputs)
    (h4 : o'.version = o.version) (h5 : o'.lockTime = o.lockTime) (hk : ∀ b, Kept o' (k o' b)) : Kept o (Obj.andThen (o', x) k) := by
  cases x with
  | err e => exact ⟨h1, h2, h3, h4, fun _ _ => .inl h5⟩
  | panic => exact ⟨h1, h2, h3, h4, fun _ _ => .inl h5⟩
  | ok b =>
    obtain ⟨k1, k2, k3, k4, k5⟩ := hk b
    exact ⟨k1.trans h1, k2.trans h2, k3.trans h3, k4.trans h4, fun e h => by rw [← h5]; exact k5 e h⟩

private theorem kept_body (o : Obj) (b : Buffer) : Kept o (Obj.readBody o b) :=
  kept_andThen rfl rfl rfl rfl rfl fun _ => kept_andThen rfl rfl rfl rfl rfl fun b => readLockTime_keeps _ b

private theorem kept_bodyWits (o : Obj) (b : Buffer) : Kept o (Obj.readBodyWits o b) :=
  kept_andThen rfl rfl rfl rfl rfl fun _ => kept_andThen rfl rfl rfl rfl rfl fun _ =>
    kept_andThen rfl rfl rfl rfl rfl fun b => readLockTime_keeps _ b

private theorem kept_marker (o : Obj) (b : Buffer) : Kept o (Obj.readMarker Obj.readBodyWits o b) := by
  have here : ∀ x : Res Bytes, Kept o (o, x) := fun x => ⟨rfl, rfl, rfl, rfl, fun _ _ => .inl rfl⟩
  unfold Obj.readMarker
  generalize b.readU8 = x
  cases x with
  | err e => exact here _
  | panic => exact here _
  | ok p =>
    rw [Obj.onRes_ok]
    split_ifs
    · exact here _
    generalize p.2.readU8 = y
    cases y with
    | err e => exact here _
    | panic => exact here _
    | ok q =>
      rw [Obj.onRes_ok]
      split_ifs
      · exact here _
      · exact kept_bodyWits o q.2

/-- **C115 (partial).** Full statement: a Deserialize that returns an error leaves the object as it was. Proved: whatever the
bytes, a failed read changes no digest cache, leaves the lock time or sets it to zero, and if there are at most four bytes it
changes nothing but the version. -/
theorem C115_partial (o : Obj) (data : Bytes) (e : Err) :
    ((o.deserialize data).2 = .err e →
      (o.deserialize data).1.hashPrevouts = o.hashPrevouts ∧ (o.deserialize data).1.hashSequence = o.hashSequence ∧
      (o.deserialize data).1.hashOutputs = o.hashOutputs ∧
      ((o.deserialize data).1.lockTime = o.lockTime ∨ (o.deserialize data).1.lockTime = 0) ∧
      (data.length ≤ 4 → (o.deserialize data).1 = { o with version := (o.deserialize data).1.version })) ∧
    ((o.deserializeNoWitness data).2 = .err e →
      (o.deserializeNoWitness data).1.hashPrevouts = o.hashPrevouts ∧
      (o.deserializeNoWitness data).1.hashSequence = o.hashSequence ∧
      (o.deserializeNoWitness data).1.hashOutputs = o.hashOutputs ∧
      ((o.deserializeNoWitness data).1.lockTime = o.lockTime ∨ (o.deserializeNoWitness data).1.lockTime = 0) ∧
      (data.length ≤ 4 → (o.deserializeNoWitness data).1 = { o with version := (o.deserializeNoWitness data).1.version })) := by
  have main : ∀ (k : Obj → Buffer → Obj × Res Bytes), (∀ o b, Kept o (k o b)) →
      (∀ o b, Rd b [] → (k o b).1 = o) →
      (Obj.readVersion k o (reader data)).2 = .err e →
      (Obj.readVersion k o (reader data)).1.hashPrevouts = o.hashPrevouts ∧
      (Obj.readVersion k o (reader data)).1.hashSequence = o.hashSequence ∧
      (Obj.readVersion k o (reader data)).1.hashOutputs = o.hashOutputs ∧
      ((Obj.readVersion k o (reader data)).1.lockTime = o.lockTime ∨ (Obj.readVersion k o (reader data)).1.lockTime = 0) ∧
      (data.length ≤ 4 → (Obj.readVersion k o (reader data)).1 =
        { o with version := (Obj.readVersion k o (reader data)).1.version }) := by
    intro k hk hn h
    unfold Obj.readVersion at h ⊢
    by_cases h4 : data.length ≤ 4
    · have hr := rd_reader data (by omega)
      generalize reader data = b at hr h
      rcases readU32_cases hr with ⟨_, e1⟩ | ⟨v, t, b', e0, e1, r1, _⟩
      · rw [e1, Obj.onRes_err]
        exact ⟨rfl, rfl, rfl, .inl rfl, fun _ => rfl⟩
      · have ht : t = [] := by
          have := congrArg List.length e0
          rw [List.length_append] at this
          have h32 : (le32 v).length = 4 := rfl
          exact List.eq_nil_of_length_eq_zero (by omega)
        rw [ht] at r1
        rw [e1, Obj.onRes_ok]
        dsimp only
        rw [hn _ b' r1]
        exact ⟨rfl, rfl, rfl, .inl rfl, fun _ => rfl⟩
    · generalize (reader data).readU32 = x at h
      cases x with
      | err e => exact ⟨rfl, rfl, rfl, .inl rfl, fun h => absurd h h4⟩
      | panic => exact ⟨rfl, rfl, rfl, .inl rfl, fun h => absurd h h4⟩
      | ok p =>
        rw [Obj.onRes_ok] at h ⊢
        obtain ⟨k1, k2, k3, _, k5⟩ := hk { o with version := p.1 } p.2
        exact ⟨k1, k2, k3, k5 e h, fun h => absurd h h4⟩
  unfold Obj.deserialize Obj.deserializeNoWitness
  refine ⟨main (Obj.readMarker Obj.readBodyWits) kept_marker ?_, main Obj.readBody kept_body ?_⟩
  · intro o b hb
    unfold Obj.readMarker
    rcases readU8_cases hb with ⟨_, e1⟩ | ⟨f, t, b', e0, _⟩
    · rw [e1, Obj.onRes_err]
    · simp at e0
  · intro o b hb
    unfold Obj.readBody Obj.readIns Obj.readSlots
    rcases readVarInt_cases hb with ⟨_, e1⟩ | ⟨f, v, t, b', e0, h2, _⟩
    · rw [e1, Obj.onRes_err]
      rfl
    · have := varInt_pos h2
      have := congrArg List.length e0
      rw [List.length_append, List.length_nil] at this
      omega

/-- after a version and nothing else -/
example : ((Obj.of cutTx).deserialize [1, 0, 0, 0]).2 = .err .bufferShort ∧
    ((Obj.of cutTx).deserialize [1, 0, 0, 0]).1 = { Obj.of cutTx with version := 1 } := by
  constructor <;> decide +kernel

/-- **C115 (negation).** Already no bytes at all set the version to zero. -/
theorem C115_negation_version (o : Obj) :
    o.deserialize [] = ({ o with version := 0 }, .err .bufferShort) ∧
    o.deserializeNoWitness [] = ({ o with version := 0 }, .err .bufferShort) := by
  have e := Obj.u32_short (rd_reader [] (by decide)) (by decide)
  unfold Obj.deserialize Obj.deserializeNoWitness Obj.readVersion
  rw [e]
  exact ⟨rfl, rfl⟩

example : ((Obj.of cutTx).deserialize []).1 ≠ Obj.of cutTx := by
  rw [(C115_negation_version _).1]
  decide

private theorem readSlots_old {α : Type} {size : ℕ} {rd : Buffer → Res (α × Buffer)} {b b' : Buffer} {l : List (Option α)}
    (h : Obj.readSlots size rd [] b = (l, .ok b')) (hl : l ≠ []) (old : List (Option α)) :
    Obj.readSlots size rd old b = (l, .ok b') := by
  unfold Obj.readSlots at h ⊢
  generalize b.readVarInt = x at h
  cases x with
  | err e => cases h
  | panic => cases h
  | ok p =>
    rw [Obj.onRes_ok] at h ⊢
    by_cases h0 : p.1.toNat = 0
    · rw [if_pos h0] at h
      cases h
      exact absurd rfl hl
    · rw [if_neg h0] at h ⊢
      by_cases h1 : p.1.toNat > makeLimit size
      · rw [if_pos h1] at h
        cases h
      · rw [if_neg h1] at h ⊢
        exact h

private theorem andThen_ok_inv {p : Obj × Res Buffer} {k : Obj → Buffer → Obj × Res Bytes} {o : Obj} {r : Bytes}
    (h : Obj.andThen p k = (o, .ok r)) : ∃ o' b, p = (o', .ok b) ∧ k o' b = (o, .ok r) := by
  obtain ⟨o', x⟩ := p
  cases x with
  | err e => cases h
  | panic => cases h
  | ok b => exact ⟨o', b, rfl, h⟩

private theorem readWits_empty (b : Buffer) : Obj.readWits [] b = ([], .ok b) := rfl

private theorem not_err {o o' : Obj} {e : Err} {r : Bytes} (h : (o, (.err e : Res Bytes)) = (o', .ok r)) : False :=
  nomatch congrArg Prod.snd h

private theorem not_panic {o o' : Obj} {r : Bytes} (h : (o, (.panic : Res Bytes)) = (o', .ok r)) : False :=
  nomatch congrArg Prod.snd h

private theorem ins_inv {o o' : Obj} {b' : Buffer} {x : List (Option TxIn) × Res Buffer}
    (h : (({ o with inputs := x.1 } : Obj), x.2) = (o', .ok b')) : x = (o'.inputs, .ok b') ∧ o' = { o with inputs := o'.inputs } := by
  obtain ⟨h1, h2⟩ := Prod.mk.inj h
  rw [← h1, ← h2]
  exact ⟨rfl, rfl⟩

private theorem outs_inv {o o' : Obj} {b' : Buffer} {x : List (Option TxOut) × Res Buffer}
    (h : (({ o with outputs := x.1 } : Obj), x.2) = (o', .ok b')) :
    x = (o'.outputs, .ok b') ∧ o' = { o with outputs := o'.outputs } := by
  obtain ⟨h1, h2⟩ := Prod.mk.inj h
  rw [← h1, ← h2]
  exact ⟨rfl, rfl⟩

private theorem readIns_inv {o o' : Obj} {b b' : Buffer} (h : Obj.readIns o b = (o', .ok b')) :
    Obj.readSlots 8 readInput o.inputs b = (o'.inputs, .ok b') ∧ o' = { o with inputs := o'.inputs } := by
  unfold Obj.readIns at h
  exact ins_inv h

private theorem readOuts_inv {o o' : Obj} {b b' : Buffer} (h : Obj.readOuts o b = (o', .ok b')) :
    Obj.readSlots 8 readOutput o.outputs b = (o'.outputs, .ok b') ∧ o' = { o with outputs := o'.outputs } := by
  unfold Obj.readOuts at h
  exact outs_inv h

private theorem readInWits_inv {o o' : Obj} {b b' : Buffer} (h : Obj.readInWits o b = (o', .ok b')) :
    Obj.readWits o.inputs b = (o'.inputs, .ok b') ∧ o' = { o with inputs := o'.inputs } := by
  unfold Obj.readInWits at h
  revert h
  generalize Obj.readWits o.inputs b = x
  intro h
  obtain ⟨h1, h2⟩ := Prod.mk.inj h
  rw [← h1, ← h2]
  exact ⟨rfl, rfl⟩

private theorem readLockTime_inv {o o' : Obj} {b : Buffer} {r : Bytes} (h : Obj.readLockTime o b = (o', .ok r)) :
    ∃ lt b4, b.readU32 = .ok (lt, b4) ∧ o' = { o with lockTime := lt } ∧ r = b4.remaining := by
  unfold Obj.readLockTime at h
  revert h
  generalize b.readU32 = x
  intro h
  cases x with
  | err e => exact (not_err h).elim
  | panic => exact (not_panic h).elim
  | ok s =>
    rw [Obj.onRes_ok] at h
    obtain ⟨f1, f2⟩ := Prod.mk.inj h
    cases f2
    exact ⟨s.1, s.2, rfl, f1.symm, rfl⟩

private theorem readIns_eq {o : Obj} {b b' : Buffer} {l : List (Option TxIn)}
    (h : Obj.readSlots 8 readInput o.inputs b = (l, .ok b')) : Obj.readIns o b = ({ o with inputs := l }, .ok b') := by
  unfold Obj.readIns
  rw [h]

private theorem readOuts_eq {o : Obj} {b b' : Buffer} {l : List (Option TxOut)}
    (h : Obj.readSlots 8 readOutput o.outputs b = (l, .ok b')) : Obj.readOuts o b = ({ o with outputs := l }, .ok b') := by
  unfold Obj.readOuts
  rw [h]

private theorem readInWits_eq {o : Obj} {b b' : Buffer} {l : List (Option TxIn)}
    (h : Obj.readWits o.inputs b = (l, .ok b')) : Obj.readInWits o b = ({ o with inputs := l }, .ok b') := by
  unfold Obj.readInWits
  rw [h]

private theorem readLockTime_eq {o : Obj} {b b' : Buffer} {lt : UInt32} (h : b.readU32 = .ok (lt, b')) :
    Obj.readLockTime o b = ({ o with lockTime := lt }, .ok b'.remaining) := by
  unfold Obj.readLockTime
  rw [h, Obj.onRes_ok]

/-- reading the part after the version and the marker: from an object without inputs and outputs, and from any object -/
private theorem readBodyWits_old (n p o : Obj) (b : Buffer) (rest : Bytes) (hni : n.inputs = []) (hno : n.outputs = [])
    (h : Obj.readBodyWits n b = (p, .ok rest)) (hi : p.inputs ≠ []) (ho : p.outputs ≠ []) :
    p.version = n.version ∧ Obj.readBodyWits o b =
      ({ o with inputs := p.inputs, outputs := p.outputs, lockTime := p.lockTime }, .ok rest) := by
  unfold Obj.readBodyWits at h ⊢
  obtain ⟨o1, b1, e1, h⟩ := andThen_ok_inv h
  obtain ⟨o2, b2, e2, h⟩ := andThen_ok_inv h
  obtain ⟨o3, b3, e3, h⟩ := andThen_ok_inv h
  obtain ⟨d1, c1⟩ := readIns_inv e1
  obtain ⟨d2, c2⟩ := readOuts_inv e2
  obtain ⟨d3, c3⟩ := readInWits_inv e3
  obtain ⟨lt, b4, d4, c4, dr⟩ := readLockTime_inv h
  have i2 : o2.inputs = o1.inputs := by rw [c2]
  have x1 : o1.outputs = [] := by rw [c1]; exact hno
  have p3 : p.inputs = o3.inputs := by rw [c4]
  have q3 : p.outputs = o2.outputs := by rw [c4]; dsimp only; rw [c3]
  have n1 : o1.inputs ≠ [] := by
    intro hn
    rw [i2, hn, readWits_empty] at d3
    exact hi (p3.trans (Prod.mk.inj d3).1.symm)
  have n2 : o2.outputs ≠ [] := fun hn => ho (q3.trans hn)
  rw [hni] at d1
  rw [x1] at d2
  rw [i2] at d3
  refine ⟨?_, ?_⟩
  · rw [c4]
    dsimp only
    rw [c3]
    dsimp only
    rw [c2]
    dsimp only
    rw [c1]
  · rw [readIns_eq (readSlots_old d1 n1 o.inputs), Obj.andThen_ok]
    rw [readOuts_eq (o := { o with inputs := o1.inputs }) (readSlots_old d2 n2 o.outputs), Obj.andThen_ok]
    rw [readInWits_eq (o := { o with inputs := o1.inputs, outputs := o2.outputs }) d3, Obj.andThen_ok]
    rw [readLockTime_eq d4, dr, p3, q3, c4]

/-- **C115.** Recovery: bytes that give a transaction with inputs and outputs when they are read into a new object give it, with
the digest caches of the object, whatever failed reads the object has been through. -/
theorem C115_recovery (o : Obj) (data rest : Bytes) (t : Transaction) (h : deserialize Tx.new data = .ok (t, rest))
    (hi : t.inputs ≠ []) (ho : t.outputs ≠ []) :
    o.deserialize data = ({ Obj.of t with
      hashPrevouts := o.hashPrevouts, hashSequence := o.hashSequence, hashOutputs := o.hashOutputs }, .ok rest) := by
  have hs := Obj.deserialize_same Tx.new data
  rw [h] at hs
  have h' : (Obj.of Tx.new).deserialize data = (Obj.of t, .ok rest) := by
    generalize (Obj.of Tx.new).deserialize data = x at hs
    cases hs
    rfl
  clear hs h
  unfold Obj.deserialize Obj.readVersion at h' ⊢
  generalize (reader data).readU32 = x at h'
  cases x with
  | err e => exact (not_err h').elim
  | panic => exact (not_panic h').elim
  | ok p =>
    rw [Obj.onRes_ok] at h' ⊢
    unfold Obj.readMarker at h' ⊢
    generalize p.2.readU8 = x at h'
    cases x with
    | err e => exact (not_err h').elim
    | panic => exact (not_panic h').elim
    | ok q =>
      rw [Obj.onRes_ok] at h' ⊢
      by_cases c1 : q.1 ≠ 0x00
      · rw [if_pos c1] at h'
        exact (not_err h').elim
      rw [if_neg c1] at h' ⊢
      generalize q.2.readU8 = x at h'
      cases x with
      | err e => exact (not_err h').elim
      | panic => exact (not_panic h').elim
      | ok r =>
        rw [Obj.onRes_ok] at h' ⊢
        by_cases c2 : r.1 ≠ 0x01
        · rw [if_pos c2] at h'
          exact (not_err h').elim
        rw [if_neg c2] at h' ⊢
        obtain ⟨v, e⟩ := readBodyWits_old _ _ { o with version := p.1 } _ _ rfl rfl h'
          (fun h => hi (List.map_eq_nil_iff.mp h)) (fun h => ho (List.map_eq_nil_iff.mp h))
        rw [e]
        have v' : t.version = p.1 := v
        rw [← v']
        rfl

example : ({ Obj.of Tx.new with inputs := [none] } : Obj).deserialize (wireSegwit cutWit) = (Obj.of cutWit, .ok []) :=
  C115_recovery _ _ [] cutWit (by decide +kernel) (by decide) (by decide)

end Toku.Props
