import Verif.Proof.TxMem
import Verif.Props.TxWire
/-
Property C117: the signature a transaction carries is the one that was embedded.
-/
namespace Toku.Props
open Toku Toku.Spec Toku.Tx Toku.Locking Toku.Slices

section
variable {κ : Type} [Hashes] (E : Ecdsa κ)

/-- Every signature given is a slice of an array there is (Go has no others). -/
def SlicesOk (m : InMemory) : List (MemOp κ) → Prop
  | [] => True
  | o :: os => (∀ x idx k s t, o = .embed x idx k s t → Ok m.heap s) ∧ ∀ m', m.step E o = .ok m' → SlicesOk m' os

/-- What the transaction becomes if embedding takes the bytes that the signature has at the time of the call. -/
def byValue (m : InMemory) (tx : Transaction) : List (MemOp κ) → Res Transaction
  | [] => .ok tx
  | .embed x idx k s t :: os =>
    embedEcdsa E tx idx k (elems m.heap s) t >>= fun tx' =>
    m.step E (.embed x idx k s t) >>= fun m' => byValue m' tx' os
  | .store a p b :: os => m.step E (.store a p b) >>= fun m' => byValue m' tx os
  | .alloc bs :: os => m.step E (.alloc bs) >>= fun m' => byValue m' tx os

/-- The memory after a step, also after an embedding that returns an error. -/
def memAfter (h : Heap UInt8) : MemOp κ → Heap UInt8
  | .embed x _ _ s t => (append x h s [t.toUInt8]).1
  | .store a p b => Mpc.store h a p b
  | .alloc bs => h ++ [bs]

/-- No step changes the bytes of the slices that the transaction holds at that time. -/
def HeldUntouched (m : InMemory) : List (MemOp κ) → Prop
  | [] => True
  | o :: os => (∀ j n s, m.held j = some (n, s) → elems (memAfter m.heap o) s = elems m.heap s) ∧
    ∀ m', m.step E o = .ok m' → HeldUntouched m' os

private theorem embed_same {m : InMemory} {x : Bytes} {idx : ℕ} {k : κ} {s : Slice} {t : UInt32} (ok : Ok m.heap s)
    (hh : ∀ j n s', m.held j = some (n, s') → elems (append x m.heap s [t.toUInt8]).1 s' = elems m.heap s') :
    Tx.embed ({ m with heap := (append x m.heap s [t.toUInt8]).1 } : InMemory).view idx
      [⟨E.pub k true, elems (append x m.heap s [t.toUInt8]).1 (append x m.heap s [t.toUInt8]).2⟩] =
    embedEcdsa E m.view idx k (elems m.heap s) t := by
  rw [view_congr hh, (append_read ok _).1]
  rfl

/-- **C117 (partial).** Full statement: after any sequence of embeddings, stores by the caller and new arrays the transaction is
the one that the bytes of the signatures at the time of each call give. Proved: it is if no step changes the bytes of a slice that
the transaction holds; errors and panics are the same too. -/
theorem C117_partial (os : List (MemOp κ)) : ∀ m : InMemory, SlicesOk E m os → HeldUntouched E m os →
    ((m.run E os) >>= fun m' => Res.ok m'.view) = byValue E m m.view os := by
  induction os with
  | nil => intro m _ _; rfl
  | cons o os ih =>
    intro m hok hun
    cases o with
    | embed x idx k s t =>
      have same := embed_same E (idx := idx) (k := k) (hok.1 _ _ _ _ _ rfl) hun.1
      unfold InMemory.run byValue
      cases hs : m.step E (.embed x idx k s t) with
      | ok m' =>
        have hv := (embed_view E (show m.embed E x idx k s t = .ok m' from hs)).1
        rw [same] at hv
        rw [hv, Res.ok_bind, Res.ok_bind]
        exact ih m' (hok.2 m' hs) (hun.2 m' hs)
      | err e =>
        have := ((embed_fails E).1 e).mp (show m.embed E x idx k s t = .err e from hs)
        rw [same] at this
        rw [this]
        rfl
      | panic =>
        have := (embed_fails E).2.mp (show m.embed E x idx k s t = .panic from hs)
        rw [same] at this
        rw [this]
        rfl
    | store a p b =>
      have hv : ({ m with heap := Mpc.store m.heap a p b } : InMemory).view = m.view := view_congr hun.1
      have := ih _ (hok.2 _ rfl) (hun.2 _ rfl)
      rw [hv] at this
      exact this
    | alloc bs =>
      have hv : ({ m with heap := m.heap ++ [bs] } : InMemory).view = m.view := view_congr hun.1
      have := ih _ (hok.2 _ rfl) (hun.2 _ rfl)
      rw [hv] at this
      exact this

/-! ### signatures without spare capacity -/

/-- Every signature given fills its array, and no byte is stored in an array of a slice that the transaction holds (`append` has
made a new one, which the caller does not know). -/
def Full (m : InMemory) : List (MemOp κ) → Prop
  | [] => True
  | o :: os => (∀ x idx k s t, o = .embed x idx k s t → capacity m.heap s = s.len) ∧
    (∀ a p b, o = .store a p b → ∀ j n s, m.held j = some (n, s) → s.arr ≠ a) ∧ ∀ m', m.step E o = .ok m' → Full m' os

omit [Hashes] in
private theorem store_other {h : Heap UInt8} {a p : ℕ} {b : UInt8} {s : Slice} (hne : s.arr ≠ a) : elems (Mpc.store h a p b) s = elems h s := by
  unfold elems array Mpc.store
  rw [array_set_ne (fun e => hne e.symm)]

omit [Hashes] in
private theorem push_other {h : Heap UInt8} {s : Slice} (ok : s.arr < h.length) (bs : Bytes) : elems (h ++ [bs]) s = elems h s := by
  unfold elems array
  rw [array_push ok]

omit [Hashes] in
private theorem append_full {h : Heap UInt8} {s : Slice} (hf : capacity h s = s.len) (x : Bytes) (b : UInt8) :
    append x h s [b] = (h ++ [elems h s ++ [b] ++ x], ⟨h.length, 0, s.len + 1⟩) := by
  unfold Slices.append
  rw [if_neg (by rw [hf]; simp)]
  rfl

private theorem held_after (tx : Transaction) (idx : ℕ) (signs : List PubKeySign) (s : Slice) (old : Option (ℕ × Slice)) :
    heldAfter tx idx signs s old = old ∨ ∀ n s', heldAfter tx idx signs s old = some (n, s') → s' = s := by
  unfold heldAfter
  repeat' split
  all_goals first | exact .inl rfl | skip
  right
  intro n s' h
  obtain ⟨_, _, e⟩ := Option.map_eq_some_iff.mp h
  exact (Prod.mk.inj e).2.symm

private theorem embed_held {m m' : InMemory} {x : Bytes} {idx : ℕ} {k : κ} {s : Slice} {t : UInt32}
    (h : m.embed E x idx k s t = .ok m') (j n : ℕ) (s' : Slice) (hj : m'.held j = some (n, s')) :
    m.held j = some (n, s') ∨ s' = (append x m.heap s [t.toUInt8]).2 := by
  unfold InMemory.embed at h
  dsimp only at h
  split at h
  · cases h
    dsimp only at hj
    split_ifs at hj with e
    · subst e
      rcases held_after ({ m with heap := (append x m.heap s [t.toUInt8]).1 } : InMemory).view j
        [⟨E.pub k true, elems (append x m.heap s [t.toUInt8]).1 (append x m.heap s [t.toUInt8]).2⟩]
        (append x m.heap s [t.toUInt8]).2 (m.held j) with e | e
      · left; rw [← e]; exact hj
      · right; exact e _ _ hj
    · exact .inl hj
  · cases h
  · cases h

private theorem full_untouched (os : List (MemOp κ)) : ∀ m : InMemory, (∀ j n s, m.held j = some (n, s) → s.arr < m.heap.length) →
    Full E m os → HeldUntouched E m os := by
  induction os with
  | nil => intro m _ _; trivial
  | cons o os ih =>
    intro m hold hf
    cases o with
    | embed x idx k s t =>
      have ha := append_full (hf.1 _ _ _ _ _ rfl) x t.toUInt8
      have keep : ∀ j n s', m.held j = some (n, s') → elems (append x m.heap s [t.toUInt8]).1 s' = elems m.heap s' := by
        intro j n s' hj
        rw [ha]
        exact push_other (hold j n s' hj) _
      refine ⟨keep, fun m' hs => ih m' ?_ (hf.2.2 m' hs)⟩
      · intro j n s' hj
        rw [(embed_view E (show m.embed E x idx k s t = .ok m' from hs)).2, ha]
        dsimp only
        rw [List.length_append, List.length_singleton]
        rcases embed_held E (show m.embed E x idx k s t = .ok m' from hs) j n s' hj with h | h
        · have := hold j n s' h; omega
        · rw [h, ha]; exact Nat.lt_succ_self _
    | store a p b =>
      refine ⟨fun j n s hj => store_other (hf.2.1 a p b rfl j n s hj), fun m' hs => ih m' ?_ (hf.2.2 m' hs)⟩
      · cases hs
        intro j n s hj
        have := hold j n s hj
        unfold Mpc.store
        rw [List.length_set]
        exact this
    | alloc bs =>
      refine ⟨fun j n s hj => push_other (hold j n s hj) bs, fun m' hs => ih m' ?_ (hf.2.2 m' hs)⟩
      · cases hs
        intro j n s hj
        have := hold j n s hj
        dsimp only
        rw [List.length_append]
        omega

/-- **C117 (partial)**: signatures without spare capacity stay what they were, whatever the caller stores in its own arrays. -/
theorem C117_full_partial (os : List (MemOp κ)) (m : InMemory) (h0 : ∀ j, m.held j = none) (hok : SlicesOk E m os) (hf : Full E m os) :
    ((m.run E os) >>= fun m' => Res.ok m'.view) = byValue E m m.tx os := by
  have hv : m.view = m.tx := view_self (h := m.heap) (tx := m.tx) (held := m.held) (fun j i _ => by rw [h0 j]; rfl)
  rw [C117_partial E os m hok (full_untouched E os m (fun j n s e => by rw [h0 j] at e; cases e) hf), hv]

/-! ### coins without witness -/

/-- The coin of every input is P2PKH or P2SH, or its script is not one of the four. -/
def Legacy (tx : Transaction) : Prop :=
  ∀ i ∈ tx.inputs, ∀ l, parse i.rawLockingScript = .ok l → l.kind = .p2pkh ∨ l.kind = .p2sh

private theorem legacy_embed {m m' : InMemory} {x : Bytes} {idx : ℕ} {k : κ} {s : Slice} {t : UInt32} (h0 : ∀ j, m.held j = none)
    (hl : Legacy m.tx) (h : m.embed E x idx k s t = .ok m') : (∀ j, m'.held j = none) ∧ Legacy m'.tx := by
  have hv : ∀ hp, ({ m with heap := hp } : InMemory).view = m.tx := fun hp =>
    view_self (h := hp) (tx := m.tx) (held := m.held) (fun j i _ => by rw [h0 j]; rfl)
  unfold InMemory.embed at h
  dsimp only at h
  rw [hv] at h
  split at h
  · rename_i tx' he
    cases h
    obtain ⟨i, l, hi, hp, hc⟩ := embed_ok he
    have mem : i ∈ m.tx.inputs := List.mem_of_getElem? hi
    have none : sigItem l.kind = none := by
      rcases hl i mem l hp with e | e <;> rw [e] <;> rfl
    refine ⟨fun j => ?_, ?_⟩
    · dsimp only
      split_ifs with e
      · unfold heldAfter
        rw [hi]
        dsimp only
        rw [hp]
        dsimp only
        rcases hc with ⟨e, hu, _⟩ | ⟨u, w, hu, _, _⟩
        · rw [hu]; exact h0 idx
        · rw [hu]; dsimp only; rw [none]; rfl
      · exact h0 j
    · have lift : ∀ i' : TxIn, i'.rawLockingScript = i.rawLockingScript → Legacy (putInput m.tx idx i') := by
        intro i' e q hq l' hl'
        rcases List.mem_or_eq_of_mem_set hq with hq | rfl
        · exact hl q hq l' hl'
        · rw [e] at hl'; exact hl i mem l' hl'
      rcases hc with ⟨e, hu, rfl⟩ | ⟨u, w, hu, _, rfl⟩
      · exact lift _ rfl
      · exact lift _ rfl
  · cases h
  · cases h

/-- **C117 (partial)**: for coins without witness the transaction is the one that the bytes at the time of each call give, without
conditions on the memory: unlocking scripts have copies. -/
theorem C117_legacy_partial (os : List (MemOp κ)) (m : InMemory) (h0 : ∀ j, m.held j = none) (hl : Legacy m.tx) (hok : SlicesOk E m os) :
    ((m.run E os) >>= fun m' => Res.ok m'.view) = byValue E m m.tx os := by
  have hv : m.view = m.tx := view_self (h := m.heap) (tx := m.tx) (held := m.held) (fun j i _ => by rw [h0 j]; rfl)
  have key : ∀ (os : List (MemOp κ)) (m : InMemory), (∀ j, m.held j = none) → Legacy m.tx → HeldUntouched E m os := by
    intro os
    induction os with
    | nil => intro m _ _; trivial
    | cons o os ih =>
      intro m h0 hl
      refine ⟨fun j n s e => ?_, fun m' hs => ?_⟩
      · rw [h0 j] at e; cases e
      cases o with
      | embed x idx k s t => exact ih m' (legacy_embed E h0 hl hs).1 (legacy_embed E h0 hl hs).2
      | store a p b => cases hs; exact ih _ h0 hl
      | alloc bs => cases hs; exact ih _ h0 hl
  rw [C117_partial E os m hok (key os m h0 hl), hv]

/-! ### the memory of the caller -/

/-- **C117, the memory**: embedding changes exactly the byte behind the signature, if its array has one: that becomes the hash type. -/
theorem C117_writes (m m' : InMemory) (x : Bytes) (idx : ℕ) (k : κ) (s : Slice) (t : UInt32) (ok : Ok m.heap s)
    (h : m.step E (.embed x idx k s t) = .ok m') (a p : ℕ) (ha : a < m.heap.length) :
    (m'.heap.getD a [])[p]? =
      if a = s.arr ∧ p = s.off + s.len ∧ p < (m.heap.getD a []).length then some t.toUInt8 else (m.heap.getD a [])[p]? := by
  rw [(embed_view E (show m.embed E x idx k s t = .ok m' from h)).2]
  exact append_one_get ok _ a p ha

/-- **C117 (negation), neighbours**: of two signatures behind one another in one array, embedding the first replaces the first byte
of the second by the hash type (the 0x30 of a DER signature is lost unless the type is 0x30). -/
theorem C117_negation_next (m m' : InMemory) (x : Bytes) (idx : ℕ) (k : κ) (s : Slice) (t : UInt32) (n : ℕ)
    (ok : Ok m.heap ⟨s.arr, s.off, s.len + (n + 1)⟩) (h : m.step E (.embed x idx k s t) = .ok m') :
    elems m'.heap ⟨s.arr, s.off + s.len, n + 1⟩ = t.toUInt8 :: (elems m.heap ⟨s.arr, s.off + s.len, n + 1⟩).tail := by
  have hlen : s.off + (s.len + (n + 1)) ≤ (m.heap.getD s.arr []).length := ok.2
  have ok1 : Ok m.heap s := ⟨ok.1, by unfold array; omega⟩
  rw [(embed_view E (show m.embed E x idx k s t = .ok m' from h)).2]
  have hb := fun p => append_one_get (extra := x) ok1 t.toUInt8 s.arr p ok.1
  unfold elems array
  dsimp only
  generalize (append x m.heap s [t.toUInt8]).1.getD s.arr [] = A at hb ⊢
  generalize m.heap.getD s.arr [] = B at hb hlen ⊢
  apply List.ext_getElem?
  intro i
  cases i with
  | zero =>
    rw [List.getElem?_take_of_lt (by omega), List.getElem?_drop, hb, if_pos ⟨rfl, by omega, by omega⟩]
    rfl
  | succ i =>
    rw [List.getElem?_cons_succ, List.getElem?_tail]
    by_cases hi : i + 1 < n + 1
    · rw [List.getElem?_take_of_lt hi, List.getElem?_take_of_lt hi, List.getElem?_drop, List.getElem?_drop, hb,
        if_neg (by rintro ⟨_, e, _⟩; omega)]
    · rw [List.getElem?_take_eq_none (by omega), List.getElem?_take_eq_none (by omega)]

/-- **C117 (negation), one buffer for all signatures**: the witness of a P2WPKH input holds the caller's memory if that has a spare
byte: whatever is there later is the signature in the witness. The unlocking script, which Verify looks at, keeps the bytes of
the time of the call. -/
theorem C117_negation_reuse (m m' : InMemory) (x : Bytes) (idx : ℕ) (k : κ) (s : Slice) (t : UInt32) (i : TxIn) (hash : Bytes)
    (hi : m.tx.inputs[idx]? = some i) (hp : parse i.rawLockingScript = .ok ⟨.p2wpkh, hash⟩) (hc : s.len < capacity m.heap s)
    (ok : Ok m.heap s) (h : m.step E (.embed x idx k s t) = .ok m') (later : Heap UInt8) :
    ∃ i', ({ m' with heap := later } : InMemory).view.inputs[idx]? = some i' ∧
      i'.witness = [elems later ⟨s.arr, s.off, s.len + 1⟩, E.pub k true] ∧
      i'.rawUnlockingScript = (Script.addData (Script.addData Buffer.new (elems m.heap s ++ [t.toUInt8])) (E.pub k true)).data := by
  have ha : (append x m.heap s [t.toUInt8]).2 = ⟨s.arr, s.off, s.len + 1⟩ := by
    unfold Slices.append
    rw [if_pos (by simpa using hc)]
    rfl
  have hr := (append_read (extra := x) ok [t.toUInt8]).1
  have h' : m.embed E x idx k s t = .ok m' := h
  unfold InMemory.embed at h'
  dsimp only at h'
  rw [ha] at h' hr
  rw [hr] at h'
  split at h'
  · rename_i tx' he
    cases h'
    obtain ⟨i1, l, hi1, hl, hcase⟩ := embed_ok he
    have e1 := hi1
    rw [view_get] at e1
    dsimp only at e1
    rw [hi] at e1
    have hloc : i1.rawLockingScript = i.rawLockingScript := by
      have := Option.some.inj e1
      rw [← this]
      cases m.held idx <;> rfl
    rw [hloc, hp] at hl
    cases hl
    have hlt := (List.getElem?_eq_some_iff.mp hi1).1
    rcases hcase with ⟨e, hu, _⟩ | ⟨u, w, hu, hw, rfl⟩
    · cases hu
    · refine ⟨{ i1 with rawUnlockingScript := u, witness := [elems later ⟨s.arr, s.off, s.len + 1⟩, E.pub k true] }, ?_, rfl, ?_⟩
      · rw [view_get]
        dsimp only
        unfold putInput
        dsimp only
        rw [List.getElem?_set_self hlt, if_pos rfl]
        unfold heldAfter
        rw [hi1]
        dsimp only
        rw [hloc, hp]
        dsimp only
        rw [hu]
        cases hw
        rfl
      · cases hu
        rfl
  · cases h'
  · cases h'

end

/-! ### A whole case -/

/-- the stores that put the bytes in array 0 from its start -/
def fillOps (bs : Bytes) : List (MemOp UInt8) := bs.mapIdx fun p b => .store 0 p b

/-- Two P2WPKH coins of the key 7, the signature of each input read into one buffer of 34 bytes and embedded. -/
def reused (pick : InMemory → Transaction → List (MemOp UInt8) → Res Transaction) : Res Transaction := do
  let _ := modHashes
  let a ← toyCoin 0
  let b ← toyCoin 1
  let tx : Transaction := { Tx.new with inputs := [a, b], outputs := [⟨900, [0x51]⟩] }
  let (h0, tx) ← witnessSignatureHash tx 0 1
  let (h1, tx) ← witnessSignatureHash tx 1 1
  let s0 ← toyEcdsa.sign 7 h0
  let s1 ← toyEcdsa.sign 7 h1
  pick ⟨[List.replicate 34 0], tx, fun _ => none⟩ tx
    (fillOps s0 ++ .embed [] 0 7 ⟨0, 0, 33⟩ 1 :: (fillOps s1 ++ [.embed [] 1 7 ⟨0, 0, 33⟩ 1]))

def reusedMem : Res Transaction :=
  reused fun m _ os => (@InMemory.run _ modHashes toyEcdsa m os) >>= fun m' => .ok m'.view

def reusedVal : Res Transaction := reused fun m tx os => @byValue _ modHashes toyEcdsa m tx os

/-- What the receiver of the bytes says. -/
def atReceiver (tx : Transaction) : Res Unit := do
  let _ := modHashes
  let (txd, _) ← deserialize Tx.new (serialize tx)
  let tx2 ← supplyCoins tx.inputs 0 txd
  (verify toyEcdsa tx2).1

/-- The conditions of `C117_full_partial`, for a signature of 33 bytes in an array of its
own and a store in that array after the call. -/
example (E : Ecdsa UInt8) [Hashes] (tx : Transaction) :
    let m : InMemory := ⟨[List.replicate 33 0x30], tx, fun _ => none⟩
    let os : List (MemOp UInt8) := [.embed [] 0 7 ⟨0, 0, 33⟩ 1, .store 0 0 5]
    SlicesOk E m os ∧ Full E m os := by
  intro m os
  refine ⟨⟨fun x idx k s t e => ?_, fun m' _ => ⟨fun _ _ _ _ _ e => (nomatch e), fun _ _ => trivial⟩⟩,
    fun x idx k s t e => ?_, fun a p b e => (nomatch e), fun m' hs => ⟨fun _ _ _ _ _ e => (nomatch e), fun a p b e j n s hj => ?_, fun _ _ => trivial⟩⟩
  · cases e; exact ⟨Nat.one_pos, Nat.le_refl 33⟩
  · cases e; rfl
  · cases e
    rcases embed_held E (show m.embed E [] 0 7 ⟨0, 0, 33⟩ 1 = .ok m' from hs) j n s hj with h | h
    · cases h
    · rw [h, append_full (show capacity m.heap ⟨0, 0, 33⟩ = 33 from rfl)]
      exact Nat.one_ne_zero

/-- **C117 (negation), a whole case**: with one buffer for both signatures Verify accepts the transaction before it is sent, and its
receiver refuses it: both inputs carry the second signature. With the bytes at the time of the calls both accept it. -/
theorem C117_negation_sent :
    reusedMem.bind (fun tx => (@verify _ modHashes toyEcdsa tx).1) = .ok () ∧ reusedMem.bind atReceiver = .err errVerifyFailed ∧
    reusedVal.bind (fun tx => (@verify _ modHashes toyEcdsa tx).1) = .ok () ∧ reusedVal.bind atReceiver = .ok () := by
  refine ⟨?_, ?_, ?_, ?_⟩ <;> decide +kernel

end Toku.Props
