import Verif.Model.TxMem
import Verif.Proof.SliceBuf
import Verif.Proof.VM
/-
Lemmas for Model/TxMem.
-/
namespace Toku.Tx
open Toku.Slices Toku.Locking

variable {κ : Type} [Hashes] (E : Ecdsa κ)

theorem embed_ok {tx tx' : Transaction} {idx : ℕ} {signs : List PubKeySign} (h : Tx.embed tx idx signs = .ok tx') :
    ∃ i l, tx.inputs[idx]? = some i ∧ parse i.rawLockingScript = .ok l ∧
      ((∃ e, rawUnlocking l signs i.redeemScript = .err e ∧ tx' = putInput tx idx { i with rawUnlockingScript := [] }) ∨
       ∃ u w, rawUnlocking l signs i.redeemScript = .ok u ∧ witnessUnlocking l signs i.redeemScript = .ok w ∧
        tx' = putInput tx idx { i with rawUnlockingScript := u, witness := w }) := by
  unfold Tx.embed at h
  obtain ⟨i, hi, h⟩ := Res.bind_eq_ok.mp h
  have hi' : tx.inputs[idx]? = some i := by
    cases e : tx.inputs[idx]? with
    | none => rw [e] at hi; cases hi
    | some j => rw [e] at hi; cases hi; rfl
  split_ifs at h
  obtain ⟨l, hl, h⟩ := Res.bind_eq_ok.mp h
  refine ⟨i, l, hi', hl, ?_⟩
  cases hu : rawUnlocking l signs i.redeemScript with
  | panic => rw [hu] at h; cases h
  | err e => rw [hu] at h; cases h; exact .inl ⟨e, rfl, rfl⟩
  | ok u =>
    rw [hu] at h
    obtain ⟨w, hw, h⟩ := Res.bind_eq_ok.mp h
    cases h
    exact .inr ⟨u, w, rfl, hw, rfl⟩

omit [Hashes] in
theorem seen_seen (h : Heap UInt8) (r : Option (ℕ × Slice)) (i : TxIn) : (i.seen h r).seen h r = i.seen h r := by
  cases r with
  | none => rfl
  | some p => simp [TxIn.seen]

omit [Hashes] in
theorem seen_raw (h : Heap UInt8) (r : Option (ℕ × Slice)) (i : TxIn) (u : Bytes) :
    ({ i with rawUnlockingScript := u } : TxIn).seen h r = { i.seen h r with rawUnlockingScript := u } := by
  cases r <;> rfl

omit [Hashes] in
theorem seen_congr {h h' : Heap UInt8} {r : Option (ℕ × Slice)} (e : ∀ n s, r = some (n, s) → elems h' s = elems h s) (i : TxIn) :
    i.seen h' r = i.seen h r := by
  cases r with
  | none => rfl
  | some p =>
    obtain ⟨n, s⟩ := p
    unfold TxIn.seen
    dsimp only
    rw [e n s rfl]

omit [Hashes] in
theorem view_congr {m : InMemory} {h : Heap UInt8} (e : ∀ j n s, m.held j = some (n, s) → elems h s = elems m.heap s) :
    ({ m with heap := h } : InMemory).view = m.view := by
  unfold InMemory.view
  have : (fun j (i : TxIn) => i.seen h (m.held j)) = fun j i => i.seen m.heap (m.held j) := by
    funext j i
    exact seen_congr (fun n s => e j n s) i
  dsimp only
  rw [this]

omit [Hashes] in
theorem view_get (m : InMemory) (j : ℕ) : m.view.inputs[j]? = (m.tx.inputs[j]?).map fun i => i.seen m.heap (m.held j) := by
  unfold InMemory.view
  simp

omit [Hashes] in
/-- A transaction is seen as it is if every item held has the bytes written in it. -/
theorem view_self {h : Heap UInt8} {tx : Transaction} {held : ℕ → Option (ℕ × Slice)}
    (e : ∀ (j : ℕ) i, tx.inputs[j]? = some i → i.seen h (held j) = i) : (⟨h, tx, held⟩ : InMemory).view = tx := by
  have : (⟨h, tx, held⟩ : InMemory).view.inputs = tx.inputs := by
    apply List.ext_getElem?
    intro j
    rw [view_get]
    cases hj : tx.inputs[j]? with
    | none => rfl
    | some i => exact congrArg some (e j i hj)
  exact congrArg (fun is => ({ tx with inputs := is } : Transaction)) this

/-- The witness made from one signature has it at the item `sigItem`. -/
theorem witness_item {l : LockScript} {g : PubKeySign} {redeem : Option Bytes} {w : List Bytes}
    (hw : witnessUnlocking l [g] redeem = .ok w) : ∀ n, sigItem l.kind = some n → w.set n g.signature = w := by
  intro n hn
  unfold witnessUnlocking at hw
  unfold sigItem at hn
  cases hk : l.kind <;> rw [hk] at hw hn <;> dsimp only at hw hn
  · cases hn
  · cases hn
  · cases hn; cases hw; rfl
  · cases hn
    split_ifs at hw with _ hlen
    · cases hw
      rfl
    · exact (hlen (by simp)).elim

/-- After a call that returned no error the transaction is the one the value model gives. -/
theorem embed_view {m m' : InMemory} {extra : Bytes} {idx : ℕ} {key : κ} {sig : Slice} {t : UInt32}
    (h : m.embed E extra idx key sig t = .ok m') :
    Tx.embed ({ m with heap := (append extra m.heap sig [t.toUInt8]).1 } : InMemory).view idx
      [⟨E.pub key true, elems (append extra m.heap sig [t.toUInt8]).1 (append extra m.heap sig [t.toUInt8]).2⟩] = .ok m'.view ∧
    m'.heap = (append extra m.heap sig [t.toUInt8]).1 := by
  unfold InMemory.embed at h
  dsimp only at h
  generalize append extra m.heap sig [t.toUInt8] = r at h ⊢
  generalize ho : ({ m with heap := r.1 } : InMemory) = o at h ⊢
  generalize hg : (⟨E.pub key true, elems r.1 r.2⟩ : PubKeySign) = g at h ⊢
  cases he : Tx.embed o.view idx [g] with
  | err e => rw [he] at h; cases h
  | panic => rw [he] at h; cases h
  | ok tx' =>
    rw [he] at h
    cases h
    refine ⟨congrArg Res.ok (view_self ?_).symm, rfl⟩
    obtain ⟨i, l, hi, hl, hc⟩ := embed_ok he
    have oh : o.heap = r.1 := by rw [← ho]
    have od : o.held = m.held := by rw [← ho]
    have hseen : ∀ (j : ℕ) i, o.view.inputs[j]? = some i → i.seen r.1 (m.held j) = i := by
      intro j i hj
      rw [view_get, oh, od] at hj
      obtain ⟨i0, _, rfl⟩ := Option.map_eq_some_iff.mp hj
      exact seen_seen _ _ _
    have hlt : idx < o.view.inputs.length := (List.getElem?_eq_some_iff.mp hi).1
    intro j i' hj
    by_cases hji : j = idx
    · subst hji
      rw [if_pos rfl]
      unfold heldAfter
      rw [hi]
      dsimp only
      rw [hl]
      dsimp only
      rcases hc with ⟨e, hu, rfl⟩ | ⟨u, w, hu, hw, rfl⟩
      · rw [hu]
        dsimp only
        unfold putInput at hj
        dsimp only at hj
        rw [List.getElem?_set_self hlt] at hj
        cases hj
        rw [seen_raw, hseen j i hi]
      · rw [hu]
        dsimp only
        unfold putInput at hj
        dsimp only at hj
        rw [List.getElem?_set_self hlt] at hj
        cases hj
        cases hs : sigItem l.kind with
        | none => rfl
        | some n =>
          have := witness_item hw n hs
          rw [← hg] at this
          dsimp only [Option.map_some, TxIn.seen]
          dsimp only at this
          rw [this]
    · rw [if_neg hji]
      have : tx'.inputs[j]? = o.view.inputs[j]? := by
        rcases hc with ⟨e, hu, rfl⟩ | ⟨u, w, hu, hw, rfl⟩ <;>
        · unfold putInput
          exact List.getElem?_set_ne (fun h => hji h.symm)
      rw [this] at hj
      exact hseen j i' hj

/-- An error or a panic is that of the value model. -/
theorem embed_fails {m : InMemory} {extra : Bytes} {idx : ℕ} {key : κ} {sig : Slice} {t : UInt32} :
    let R := Tx.embed ({ m with heap := (append extra m.heap sig [t.toUInt8]).1 } : InMemory).view idx
      [⟨E.pub key true, elems (append extra m.heap sig [t.toUInt8]).1 (append extra m.heap sig [t.toUInt8]).2⟩]
    (∀ e, m.embed E extra idx key sig t = .err e ↔ R = .err e) ∧ (m.embed E extra idx key sig t = .panic ↔ R = .panic) := by
  intro R
  unfold InMemory.embed
  dsimp only
  cases hR : R with
  | ok x => rw [show Tx.embed _ _ _ = _ from hR]; simp
  | err e => rw [show Tx.embed _ _ _ = _ from hR]; simp
  | panic => rw [show Tx.embed _ _ _ = _ from hR]; simp

omit [Hashes] in
/-- One byte of the memory after an append of one byte. -/
theorem append_one_get {extra : Bytes} {h : Heap UInt8} {s : Slice} (hs : Ok h s) (b : UInt8) (a p : ℕ) (ha : a < h.length) :
    ((append extra h s [b]).1.getD a [])[p]? =
      if a = s.arr ∧ p = s.off + s.len ∧ p < (h.getD a []).length then some b else (h.getD a [])[p]? := by
  have h2 := hs.2
  unfold Slices.append
  split
  · next hc =>
    by_cases e : a = s.arr
    · subst e
      dsimp only
      rw [array_set_self hs.1]
      unfold writeAt array
      unfold capacity array at hc
      unfold array at h2
      have h3 : s.off + s.len + 1 ≤ (h.getD s.arr []).length := by
        simp only [List.length_cons, List.length_nil] at hc; omega
      generalize h.getD s.arr [] = A at *
      generalize s.off + s.len = q at *
      rcases Nat.lt_trichotomy p q with hp | hp | hp
      · rw [if_neg (by omega), List.append_assoc, List.getElem?_append_left (by rw [List.length_take]; omega), List.getElem?_take_of_lt hp]
      · subst hp
        rw [if_pos (by omega), List.append_assoc, List.getElem?_append_right (by rw [List.length_take]; omega), List.length_take,
          min_eq_left (by omega), Nat.sub_self]
        rfl
      · rw [if_neg (by omega), List.getElem?_append_right (by simp only [List.length_append, List.length_take, List.length_cons, List.length_nil]; omega),
          List.getElem?_drop]
        congr 1
        simp only [List.length_append, List.length_take, List.length_cons, List.length_nil]
        omega
    · rw [if_neg (fun c => e c.1)]
      dsimp only
      rw [array_set_ne (fun c => e c.symm)]
  · next hc =>
    dsimp only
    rw [array_push ha, if_neg]
    rintro ⟨rfl, rfl, hp⟩
    unfold capacity array at hc
    simp only [List.length_cons, List.length_nil] at hc
    omega

end Toku.Tx
