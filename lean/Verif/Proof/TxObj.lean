import Verif.Spec.TxObj
import Verif.Proof.Tx
import Verif.Proof.TxParse
/-
Helper lemmas for reading into objects.
-/
namespace Toku.Tx.Obj
open Toku.Spec Toku.Buffer Toku.Wire

theorem onRes_ok {α β : Type} (a : α) (f : α → β) (g : Err → β) (c : β) : onRes (.ok a) f g c = f a := rfl
theorem onRes_err {α β : Type} (e : Err) (f : α → β) (g : Err → β) (c : β) : onRes (.err e : Res α) f g c = g e := rfl
theorem onRes_panic {α β : Type} (f : α → β) (g : Err → β) (c : β) : onRes (.panic : Res α) f g c = c := rfl

/-! ### the object model against the pure one -/

theorem readSome_cases {α : Type} (rd : Buffer → Res (α × Buffer)) (n : ℕ) : ∀ b : Buffer,
    match readMany rd n b with
    | .ok (l, b') => readSome rd n b = (l, .ok b') ∧ l.length = n
    | .err e => (readSome rd n b).2 = .err e
    | .panic => (readSome rd n b).2 = .panic := by
  induction n with
  | zero => intro b; exact ⟨rfl, rfl⟩
  | succ n ih =>
    intro b
    rw [readMany, readSome]
    cases h : rd b with
    | err e => rfl
    | panic => rfl
    | ok p =>
      obtain ⟨x, b1⟩ := p
      rw [Res.ok_bind]
      dsimp only [onRes]
      have := ih b1
      cases h2 : readMany rd n b1 with
      | err e => rw [h2] at this; exact this
      | panic => rw [h2] at this; exact this
      | ok q =>
        obtain ⟨xs, b2⟩ := q
        rw [h2] at this
        rw [Res.ok_bind]
        dsimp only [onRes] at this ⊢
        rw [this.1]
        exact ⟨rfl, by rw [List.length_cons, this.2]⟩

theorem filled_full {α : Type} (d : α) {n : ℕ} {l : List α} (h : l.length = n) : filled d n l = l := by
  unfold filled
  rw [h, Nat.sub_self]
  exact List.append_nil l

theorem stored_full {α β : Type} (d : β) (f : α → β) {l : List α} {n : ℕ} (h : l.length = n) (r : Res Buffer) :
    stored d f n (l, r) = (l.map f, r) := by
  unfold stored
  dsimp only [onRes]
  rw [filled_full d (by rw [List.length_map, h])]

/-- Outcome of reading a list: the same list without nil pointers, the same error, or a panic. -/
inductive SlotsAs {α β : Type} (f : α → β) : List β × Res Buffer → Res (List α × Buffer) → Prop
  | ok (l : List α) (b : Buffer) : SlotsAs f (l.map f, .ok b) (.ok (l, b))
  | err (x : List β) (e : Err) : SlotsAs f (x, .err e) (.err e)
  | panic (x : List β) : SlotsAs f (x, .panic) .panic

theorem stored_as {α β : Type} (d : β) (f : α → β) (rd : Buffer → Res (α × Buffer)) (n : ℕ) (b : Buffer) :
    SlotsAs f (stored d f n (readSome rd n b)) (readMany rd n b) := by
  have := readSome_cases rd n b
  cases h2 : readMany rd n b with
  | err e =>
    rw [h2] at this
    dsimp only at this
    unfold stored
    rw [this]
    exact .err _ _
  | panic =>
    rw [h2] at this
    dsimp only at this
    unfold stored
    rw [this]
    exact .panic _
  | ok q =>
    obtain ⟨xs, b2⟩ := q
    rw [h2] at this
    dsimp only at this
    rw [this.1, stored_full d f this.2]
    exact .ok _ _

theorem readSlots_as {α : Type} (size : ℕ) (rd : Buffer → Res (α × Buffer)) (old : List α) (b : Buffer) :
    SlotsAs some (readSlots size rd (old.map some) b) (readCounted size rd old b) := by
  unfold readCounted readSlots
  cases h : b.readVarInt with
  | err e => exact .err _ _
  | panic => exact .panic _
  | ok p =>
    obtain ⟨n, b1⟩ := p
    rw [Res.ok_bind]
    dsimp only [onRes]
    by_cases h0 : n.toNat = 0
    · rw [if_pos h0, if_pos h0]
      exact .ok _ _
    · rw [if_neg h0, if_neg h0]
      by_cases h1 : n.toNat > makeLimit size
      · rw [if_pos h1, if_pos h1]
        exact .panic _
      · rw [if_neg h1, if_neg h1]
        exact stored_as none some rd n.toNat b1

/-- Outcome of reading one witness. -/
inductive StackAs : Res (List Bytes × Res Buffer) → Res (List Bytes × Buffer) → Prop
  | ok (w : List Bytes) (b : Buffer) : StackAs (.ok (w, .ok b)) (.ok (w, b))
  | err (e : Err) : StackAs (.err e) (.err e)
  | err' (w : List Bytes) (e : Err) : StackAs (.ok (w, .err e)) (.err e)
  | panic : StackAs .panic .panic
  | panic' (w : List Bytes) : StackAs (.ok (w, .panic)) .panic

theorem readStack_as (size : ℕ) (b : Buffer) : StackAs (readStack size b) (readCounted size (fun b => b.readVarBytes) [] b) := by
  unfold readCounted readStack
  cases h : b.readVarInt with
  | err e => exact .err _
  | panic => exact .panic
  | ok p =>
    obtain ⟨n, b1⟩ := p
    rw [Res.ok_bind]
    dsimp only [onRes]
    by_cases h0 : n.toNat = 0
    · rw [if_pos h0, if_neg (by rw [h0]; omega), h0]
      exact .ok _ _
    · rw [if_neg h0]
      by_cases h1 : n.toNat > makeLimit size
      · rw [if_pos h1, if_pos h1]
        exact .panic
      · rw [if_neg h1, if_neg h1]
        have := stored_as [] id (fun b => b.readVarBytes) n.toNat b1
        revert this
        generalize stored [] id n.toNat (readSome (fun b => b.readVarBytes) n.toNat b1) = x
        generalize readMany (fun b => b.readVarBytes) n.toNat b1 = y
        intro this
        cases this with
        | ok l b => rw [List.map_id]; exact .ok _ _
        | err x e => exact .err' _ _
        | panic x => exact .panic' _

theorem readWits_as : ∀ (ins : List TxIn) (b : Buffer), SlotsAs some (readWits (ins.map some) b) (readWitnesses ins b) := by
  intro ins
  induction ins with
  | nil => intro b; exact .ok [] b
  | cons i is ih =>
    intro b
    rw [readWitnesses, List.map_cons, readWits]
    have := readStack_as 24 b
    revert this
    generalize readStack 24 b = x
    generalize readCounted 24 (fun b => b.readVarBytes) [] b = y
    intro this
    cases this with
    | err e => exact .err _ _
    | err' w e => exact .err _ _
    | panic => exact .panic _
    | panic' w => exact .panic _
    | ok w b2 =>
      rw [Res.ok_bind]
      dsimp only [onRes]
      have h3 := ih b2
      revert h3
      generalize readWits (is.map some) b2 = x
      generalize readWitnesses is b2 = y
      intro h3
      cases h3 with
      | err x e => exact .err _ _
      | panic x => exact .panic _
      | ok l b3 => exact .ok ({ i with witness := w } :: l) b3

private theorem readLockTime_same (t : Transaction) (b : Buffer) :
    SameRead (readLockTime (of t) b) (do
      let (lockTime, b) ← b.readU32
      return ({ t with lockTime := lockTime }, b.remaining)) := by
  unfold readLockTime
  cases h : b.readU32 with
  | err e => exact .err _ _
  | panic => exact .panic _
  | ok p => exact .ok { t with lockTime := p.1 } p.2.remaining

private theorem same_step {α : Type} {x : List (Option α) × Res Buffer} {y : Res (List α × Buffer)} (hxy : SlotsAs some x y)
    {f : List (Option α) → Obj} {tail : Obj → Buffer → Obj × Res Bytes} {k : List α × Buffer → Res (Transaction × Bytes)}
    (h : ∀ l b, SameRead (tail (f (l.map some)) b) (k (l, b))) : SameRead (andThen (f x.1, x.2) tail) (y >>= k) := by
  unfold andThen
  cases hxy with
  | err x e => exact .err _ _
  | panic x => exact .panic _
  | ok l b => exact h l b

private theorem readBody_same (tx : Transaction) (v : UInt32) (b : Buffer) :
    SameRead (readBody { of tx with version := v } b) (do
      let (ins, b) ← readCounted 8 readInput tx.inputs b
      let (outs, b) ← readCounted 8 readOutput tx.outputs b
      let (lockTime, b) ← b.readU32
      return ({ tx with version := v, inputs := ins, outputs := outs, lockTime := lockTime }, b.remaining)) := by
  unfold readBody readIns
  refine same_step (readSlots_as 8 readInput tx.inputs b) (f := fun l => { of { tx with version := v } with inputs := l }) ?_
  intro ins b
  unfold readOuts
  refine same_step (readSlots_as 8 readOutput tx.outputs b)
    (f := fun l => { of { tx with version := v, inputs := ins } with outputs := l }) ?_
  intro outs b
  exact readLockTime_same { tx with version := v, inputs := ins, outputs := outs } b

private theorem readBodyWits_same (tx : Transaction) (v : UInt32) (b : Buffer) :
    SameRead (readBodyWits { of tx with version := v } b) (do
      let (ins, b) ← readCounted 8 readInput tx.inputs b
      let (outs, b) ← readCounted 8 readOutput tx.outputs b
      let (ins, b) ← readWitnesses ins b
      let (lockTime, b) ← b.readU32
      return ({ tx with version := v, inputs := ins, outputs := outs, lockTime := lockTime }, b.remaining)) := by
  unfold readBodyWits readIns
  refine same_step (readSlots_as 8 readInput tx.inputs b) (f := fun l => { of { tx with version := v } with inputs := l }) ?_
  intro ins b
  unfold readOuts
  refine same_step (readSlots_as 8 readOutput tx.outputs b)
    (f := fun l => { of { tx with version := v, inputs := ins } with outputs := l }) ?_
  intro outs b
  unfold readInWits
  refine same_step (readWits_as ins b) (f := fun l => { of { tx with version := v, outputs := outs } with inputs := l }) ?_
  intro ins' b
  exact readLockTime_same { tx with version := v, inputs := ins', outputs := outs } b

theorem deserializeNoWitness_same (tx : Transaction) (data : Bytes) :
    SameRead ((of tx).deserializeNoWitness data) (Tx.deserializeNoWitness tx data) := by
  unfold deserializeNoWitness Tx.deserializeNoWitness readVersion
  dsimp only
  generalize (Buffer.reader data).readU32 = x
  cases x with
  | err e => exact .err _ _
  | panic => exact .panic _
  | ok p =>
    obtain ⟨v, b⟩ := p
    rw [Res.ok_bind, onRes_ok]
    dsimp only
    exact readBody_same tx v b

theorem deserialize_same (tx : Transaction) (data : Bytes) :
    SameRead ((of tx).deserialize data) (Tx.deserialize tx data) := by
  unfold deserialize Tx.deserialize readVersion
  dsimp only
  generalize (Buffer.reader data).readU32 = x
  cases x with
  | err e => exact .err _ _
  | panic => exact .panic _
  | ok p =>
    obtain ⟨v, b⟩ := p
    rw [Res.ok_bind, onRes_ok]
    dsimp only
    unfold readMarker
    generalize b.readU8 = x
    cases x with
    | err e => exact .err _ _
    | panic => exact .panic _
    | ok p =>
      obtain ⟨m, b1⟩ := p
      rw [Res.ok_bind, onRes_ok]
      dsimp only
      by_cases hm : m ≠ 0x00
      · rw [if_pos hm, if_pos hm]
        exact .err _ _
      rw [if_neg hm, if_neg hm]
      generalize b1.readU8 = x
      cases x with
      | err e => exact .err _ _
      | panic => exact .panic _
      | ok p =>
        obtain ⟨fl, b2⟩ := p
        rw [Res.ok_bind, onRes_ok]
        dsimp only
        by_cases hf : fl ≠ 0x01
        · rw [if_pos hf, if_pos hf]
          exact .err _ _
        rw [if_neg hf, if_neg hf]
        exact readBodyWits_same tx v b2

/-! ### reading part of an encoding -/

theorem take_lt {a b : Bytes} {m : ℕ} (h : m < a.length) : (a ++ b).take m = a.take m := by
  rw [List.take_append, Nat.sub_eq_zero_of_le (Nat.le_of_lt h), List.take_zero, List.append_nil]

theorem take_ge {a b : Bytes} {m : ℕ} (h : a.length ≤ m) : (a ++ b).take m = a ++ b.take (m - a.length) := by
  rw [List.take_append, List.take_of_length_le h]

theorem isVarInt_tail {f : UInt8} {t : Bytes} {n : ℕ} (h : IsVarInt (f :: t) n) : t.length = varIntTail f := by
  unfold varIntTail
  rcases h with ⟨g, h1, h2, h3⟩ | ⟨u, h1, h2, h3⟩ | ⟨u, h1, h2, h3⟩ | ⟨u, h1, h2, h3⟩
  · cases h2
    have a1 : f ≠ 0xfd := by rintro rfl; revert h1; decide
    have a2 : f ≠ 0xfe := by rintro rfl; revert h1; decide
    have a3 : f ≠ 0xff := by rintro rfl; revert h1; decide
    rw [if_neg a1, if_neg a2, if_neg a3]
    rfl
  all_goals
    obtain ⟨rfl, rfl⟩ := List.cons.inj h2
    rw [h1]
    decide

theorem varInt_short {b : Buffer} {v : UInt64} {m : ℕ} (hm : m < (encVarInt v).length) (h : Rd b ((encVarInt v).take m)) :
    b.readVarInt = .err .bufferShort := by
  rcases readVarInt_cases h with ⟨_, e⟩ | ⟨e, w, t, b', h1, h2, _⟩
  · exact e
  · exfalso
    have hv := encVarInt_isVarInt v
    cases e with
    | nil => have := varInt_pos h2; simp at this
    | cons f u =>
      cases hc : encVarInt v with
      | nil => rw [hc] at hm; simp at hm
      | cons g x =>
        rw [hc] at h1 hv hm
        cases m with
        | zero => simp at h1
        | succ m =>
          rw [List.take_succ_cons, List.cons_append] at h1
          obtain ⟨rfl, h3⟩ := List.cons.inj h1
          have e1 := isVarInt_tail h2
          have e2 := isVarInt_tail hv
          have := congrArg List.length h3
          rw [List.length_take, List.length_append] at this
          rw [List.length_cons] at hm
          omega

theorem u32_short {b : Buffer} {r : Bytes} (h : Rd b r) (hl : r.length < 4) : b.readU32 = .err .bufferShort := by
  rcases readU32_cases h with ⟨_, e⟩ | ⟨v, t, b', rfl, _⟩
  · exact e
  · rw [List.length_append] at hl
    have : (le32 v).length = 4 := rfl
    omega

theorem u64_short {b : Buffer} {r : Bytes} (h : Rd b r) (hl : r.length < 8) : b.readU64 = .err .bufferShort := by
  rcases readU64_cases h with ⟨_, e⟩ | ⟨v, t, b', rfl, _⟩
  · exact e
  · rw [List.length_append] at hl
    have : (le64 v).length = 8 := rfl
    omega

theorem bytes_short {b : Buffer} {r : Bytes} {l : ℕ} (h : Rd b r) (hl : r.length < l) (h62 : l < 2^62) :
    b.readBytes l = .err .bufferShort := by
  have hs := h.seek_lt
  rcases readBytes_cases h l (by omega) with ⟨_, e⟩ | ⟨x, t, b', rfl, hx, _⟩
  · exact e
  · rw [List.length_append] at hl
    omega

theorem varBytes_short {b : Buffer} {x : Bytes} {m : ℕ} (hx : x.length < 2^62) (hm : m < (encVarBytes x).length)
    (h : Rd b ((encVarBytes x).take m)) : b.readVarBytes = .err .bufferShort := by
  unfold encVarBytes at h hm
  unfold readVarBytes
  by_cases hc : m < (encVarInt (UInt64.ofNat x.length)).length
  · rw [take_lt hc] at h
    rw [varInt_short hc h, Res.err_bind]
  · rw [take_ge (by omega)] at h
    obtain ⟨b1, e1, r1, _⟩ := readVarInt_enc h
    rw [e1, Res.ok_bind]
    dsimp only [onRes]
    rw [intOfU64_ofNat (by omega)]
    refine bytes_short r1 ?_ hx
    rw [List.length_take]
    rw [List.length_append] at hm
    omega

/-- `rd` reports too few bytes on every proper part of an encoding. -/
def Short {α β : Type} (rd : Buffer → Res (β × Buffer)) (enc : α → Bytes) (ok : α → Prop) : Prop :=
  ∀ x, ok x → ∀ (b : Buffer) (m : ℕ), m < (enc x).length → Rd b ((enc x).take m) → rd b = .err .bufferShort

theorem short_varStr : Short (fun b => b.readVarBytes) varStr (fun w => w.length < 2^62) := by
  intro w hw b m hm h
  rw [varStr_eq (by omega)] at hm h
  exact varBytes_short hw hm h

theorem short_output : Short readOutput wireOut (fun o => o.script.length < 2^62) := by
  intro o ho b m hm h
  unfold wireOut at hm h
  rw [le8, varStr_eq (by omega)] at hm h
  have h8 : (le64 o.value).length = 8 := rfl
  unfold readOutput
  by_cases hc : m < (le64 o.value).length
  · rw [take_lt hc] at h
    rw [u64_short h (by rw [List.length_take]; omega), Res.err_bind]
  · rw [take_ge (by omega)] at h
    obtain ⟨b1, e1, r1, _⟩ := readU64_le h
    rw [e1, Res.ok_bind]
    dsimp only [onRes]
    rw [List.length_append] at hm
    rw [varBytes_short ho (by omega) r1, Res.err_bind]

theorem short_input : Short readInput (fun i => wireIn i.hash i.index (scriptSig i) i.sequence)
    (fun i => i.hash.length = 32 ∧ i.rawUnlockingScript.length < 2^62) := by
  intro i ⟨h32, hl⟩ b m hm h
  have hl : (scriptSig i).length < 2^62 := by
    unfold scriptSig
    split
    · exact hl
    · simp
  simp only [wireIn, le4, varStr_eq (show (scriptSig i).length < 2^64 by omega), List.append_assoc] at h hm
  simp only [List.length_append] at hm
  have h4 : ∀ v : UInt32, (le32 v).length = 4 := fun _ => rfl
  unfold readInput
  by_cases c1 : m < i.hash.length
  · rw [take_lt c1] at h
    rw [show ((32 : Int)) = ((32 : Nat) : Int) from rfl, bytes_short h (by rw [List.length_take]; omega) (by omega), Res.err_bind]
  rw [take_ge (by omega)] at h
  obtain ⟨b1, e1, r1, _⟩ := readBytes_ok h
  rw [h32] at e1
  rw [show ((32 : Int)) = ((32 : Nat) : Int) from rfl, e1, Res.ok_bind]
  dsimp only [onRes]
  by_cases c2 : m - i.hash.length < (le32 i.index).length
  · rw [take_lt c2] at r1
    rw [u32_short r1 (by rw [List.length_take]; have := h4 i.index; omega), Res.err_bind]
  rw [take_ge (by omega)] at r1
  obtain ⟨b2, e2, r2, _⟩ := readU32_le r1
  rw [e2, Res.ok_bind]
  dsimp only [onRes]
  by_cases c3 : m - i.hash.length - (le32 i.index).length < (encVarBytes (scriptSig i)).length
  · rw [take_lt c3] at r2
    rw [varBytes_short hl c3 r2, Res.err_bind]
  rw [take_ge (by omega)] at r2
  obtain ⟨b3, e3, r3, _⟩ := readVarBytes_enc r2
  rw [e3, Res.ok_bind]
  dsimp only [onRes]
  rw [u32_short r3 (by rw [List.length_take]; have := h4 i.index; have := h4 i.sequence; omega), Res.err_bind]

theorem readSome_enc {α β : Type} {rd : Buffer → Res (β × Buffer)} {enc : α → Bytes} {norm : α → β} {ok : α → Prop}
    (hr : Reads rd enc norm ok) (l : List α) (ho : ∀ x ∈ l, ok x) (b : Buffer) (t : Bytes) (h : Rd b (l.flatMap enc ++ t)) :
    ∃ b', readSome rd l.length b = (l.map norm, .ok b') ∧ Rd b' t := by
  obtain ⟨b', e, r⟩ := readMany_enc hr l ho b t h
  have := readSome_cases rd l.length b
  rw [e] at this
  exact ⟨b', this.1, r⟩

theorem readSome_cut {α β : Type} {rd : Buffer → Res (β × Buffer)} {enc : α → Bytes} {norm : α → β} {ok ok' : α → Prop}
    (hr : Reads rd enc norm ok) (hs : Short rd enc ok') : ∀ (l : List α), (∀ x ∈ l, ok x) → (∀ x ∈ l, ok' x) →
    ∀ (b : Buffer) (m : ℕ), m < (l.flatMap enc).length → Rd b ((l.flatMap enc).take m) →
      readSome rd l.length b = ((whole enc l m).map norm, .err .bufferShort)
  | [], _, _, b, m, hm, h => by simp at hm
  | x :: l, ho, ho', b, m, hm, h => by
    rw [List.flatMap_cons] at h hm
    rw [List.length_cons, readSome, whole]
    by_cases hc : (enc x).length ≤ m
    · rw [take_ge hc] at h
      obtain ⟨b1, e1, r1⟩ := hr x (ho x List.mem_cons_self) b _ h
      rw [List.length_append] at hm
      have ih := readSome_cut hr hs l (fun y hy => ho y (List.mem_cons_of_mem _ hy))
        (fun y hy => ho' y (List.mem_cons_of_mem _ hy)) b1 (m - (enc x).length) (by omega) r1
      rw [e1]
      dsimp only [onRes]
      rw [ih, if_pos hc]
      rfl
    · rw [take_lt (by omega)] at h
      rw [hs x (ho' x List.mem_cons_self) b m (by omega) h, if_neg hc]
      rfl

theorem whole_all {α : Type} (enc : α → Bytes) : ∀ (l : List α) (m : ℕ), (l.flatMap enc).length ≤ m → whole enc l m = l
  | [], _, _ => rfl
  | x :: l, m, h => by
    rw [List.flatMap_cons, List.length_append] at h
    rw [whole, if_pos (by omega), whole_all enc l _ (by omega)]

theorem slots_all {α β : Type} (enc : α → Bytes) (norm : α → β) (l : List α) (m : ℕ) (h : (l.flatMap enc).length ≤ m) :
    slots enc norm l m = l.map fun x => some (norm x) := by
  unfold slots
  rw [whole_all enc l m h, Nat.sub_self]
  exact List.append_nil _

theorem readSlots_enc {α β : Type} {rd : Buffer → Res (β × Buffer)} {enc : α → Bytes} {norm : α → β} {ok : α → Prop}
    (hr : Reads rd enc norm ok) (l : List α) (ho : ∀ x ∈ l, ok x) (size : ℕ) (hl : l.length ≤ makeLimit size)
    (h64 : l.length < 2^64) (old : List (Option β))
    (b : Buffer) (t : Bytes) (h : Rd b (counted enc l ++ t)) :
    ∃ b', readSlots size rd old b = (if l = [] then old else l.map fun x => some (norm x), .ok b') ∧ Rd b' t := by
  unfold counted at h
  rw [compactSize_eq (by omega), List.append_assoc] at h
  obtain ⟨b1, e1, r1, _⟩ := readVarInt_enc h
  obtain ⟨b2, e2, r2⟩ := readSome_enc hr l ho b1 t r1
  have hn : (UInt64.ofNat l.length).toNat = l.length := by rw [UInt64.toNat_ofNat']; omega
  unfold readSlots
  rw [e1]
  dsimp only [onRes]
  rw [hn]
  cases l with
  | nil =>
    refine ⟨b1, ?_, r1⟩
    rw [if_pos List.length_nil, if_pos rfl]
  | cons x l =>
    refine ⟨b2, ?_, r2⟩
    rw [if_neg (by simp), if_neg (by omega), e2, if_neg (by simp), stored_full none some (by simp), List.map_map]
    rfl

theorem readSlots_cut {α β : Type} {rd : Buffer → Res (β × Buffer)} {enc : α → Bytes} {norm : α → β} {ok ok' : α → Prop}
    (hr : Reads rd enc norm ok) (hs : Short rd enc ok') (l : List α) (ho : ∀ x ∈ l, ok x) (ho' : ∀ x ∈ l, ok' x)
    (size : ℕ) (hl : l.length ≤ makeLimit size)
    (h64 : l.length < 2^64) (old : List (Option β)) (b : Buffer) (m : ℕ) (hm : m < (counted enc l).length)
    (h : Rd b ((counted enc l).take m)) :
    readSlots size rd old b = (if m < (compactSize l.length).length ∨ l = [] then old
      else slots enc norm l (m - (compactSize l.length).length), .err .bufferShort) := by
  unfold counted at h hm
  rw [List.length_append] at hm
  rw [compactSize_eq (by omega)] at h hm ⊢
  unfold readSlots
  by_cases hc : m < (encVarInt (UInt64.ofNat l.length)).length
  · rw [take_lt hc] at h
    rw [varInt_short hc h, if_pos (Or.inl hc)]
    rfl
  · rw [take_ge (by omega)] at h
    obtain ⟨b1, e1, r1, _⟩ := readVarInt_enc h
    have hn : (UInt64.ofNat l.length).toNat = l.length := by rw [UInt64.toNat_ofNat']; omega
    have hne : l ≠ [] := by
      rintro rfl
      rw [List.flatMap_nil] at hm
      change m < _ + 0 at hm
      omega
    rw [e1]
    dsimp only [onRes]
    rw [hn, if_neg (by simpa using hne), if_neg (by omega), readSome_cut hr hs l ho ho' b1 _ (by omega) r1,
      if_neg (by rintro (h | h); exacts [hc h, hne h])]
    unfold stored filled slots
    dsimp only [onRes]
    rw [List.map_map, List.length_map]
    rfl

/-! ### part of a transaction -/

theorem andThen_err (o : Obj) (e : Err) (k : Obj → Buffer → Obj × Res Bytes) : andThen (o, .err e) k = (o, .err e) := rfl
theorem andThen_ok (o : Obj) (b : Buffer) (k : Obj → Buffer → Obj × Res Bytes) : andThen (o, .ok b) k = k o b := rfl

theorem counted_length {α : Type} (enc : α → Bytes) (l : List α) :
    (counted enc l).length = (compactSize l.length).length + (l.flatMap enc).length := by
  unfold counted
  rw [List.length_append]

/-- The bounds under which the lengths on the wire are those Go can have. -/
structure Fits (tx : Transaction) : Prop where
  enc : Encodable tx
  ins : tx.inputs.length ≤ makeLimit 8
  outs : tx.outputs.length ≤ makeLimit 8
  wits : ∀ i ∈ tx.inputs, i.witness.length ≤ makeLimit 24

theorem leftIns_all (s : ℕ) (tx : Transaction) (m : ℕ) (old : List (Option TxIn)) (h : insEnd s tx ≤ m) :
    leftIns s tx m old = if tx.inputs = [] then old else tx.inputs.map fun i => some (bareIn i) := by
  unfold leftIns
  unfold insEnd at h
  by_cases h0 : tx.inputs = []
  · rw [if_pos (.inr h0), if_pos h0]
  · have h1 : ¬ (m < insStart s tx ∨ tx.inputs = []) := by
      rintro (h | h)
      · omega
      · exact h0 h
    rw [if_neg h1, if_neg h0, slots_all _ _ _ _ (by omega)]

theorem leftOuts_all (s : ℕ) (tx : Transaction) (m : ℕ) (old : List (Option TxOut)) (h : outsEnd s tx ≤ m) :
    leftOuts s tx m old = if tx.outputs = [] then old else tx.outputs.map fun o => some o := by
  unfold leftOuts
  unfold outsEnd at h
  by_cases h0 : tx.outputs = []
  · rw [if_pos (.inr h0), if_pos h0]
  · have h1 : ¬ (m < outsStart s tx ∨ tx.outputs = []) := by
      rintro (h | h)
      · omega
      · exact h0 h
    rw [if_neg h1, if_neg h0, slots_all _ _ _ _ (by omega)]
    rfl

theorem leftOuts_none (s : ℕ) (tx : Transaction) (m : ℕ) (old : List (Option TxOut)) (h : m < outsStart s tx) :
    leftOuts s tx m old = old := by
  unfold leftOuts
  rw [if_pos (.inl h)]

theorem leftIns_none (s : ℕ) (tx : Transaction) (m : ℕ) (old : List (Option TxIn)) (h : m < insStart s tx) :
    leftIns s tx m old = old := by
  unfold leftIns
  rw [if_pos (.inl h)]

/-- What comes before the inputs, their bytes, and the bytes of the outputs. -/
theorem insEnd_eq (s : ℕ) (tx : Transaction) :
    insEnd s tx = s + (counted (fun i : TxIn => wireIn i.hash i.index (scriptSig i) i.sequence) tx.inputs).length := by
  rw [counted_length]
  unfold insEnd insStart
  omega

theorem outsEnd_eq (s : ℕ) (tx : Transaction) : outsEnd s tx = insEnd s tx + (counted wireOut tx.outputs).length := by
  rw [counted_length]
  unfold outsEnd outsStart
  omega

theorem compactSize_pos (n : ℕ) : 1 ≤ (compactSize n).length := by
  unfold compactSize
  repeat' split
  all_goals simp

theorem insOuts_cut {tx : Transaction} (h : Fits tx) (o : Obj) (b : Buffer) (s m : ℕ) (T : Bytes)
    (k : Obj → Buffer → Obj × Res Bytes)
    (hr : Rd b ((counted (fun i : TxIn => wireIn i.hash i.index (scriptSig i) i.sequence) tx.inputs ++
      (counted wireOut tx.outputs ++ T)).take m)) :
    (s + m < outsEnd s tx → andThen (readIns o b) (fun o b => andThen (readOuts o b) k) =
      ({ o with inputs := leftIns s tx (s + m) o.inputs, outputs := leftOuts s tx (s + m) o.outputs }, .err .bufferShort)) ∧
    (outsEnd s tx ≤ s + m → ∃ b', andThen (readIns o b) (fun o b => andThen (readOuts o b) k) =
      k { o with inputs := leftIns s tx (s + m) o.inputs, outputs := leftOuts s tx (s + m) o.outputs } b' ∧
      Rd b' (T.take (s + m - outsEnd s tx))) := by
  have i1 : ∀ i ∈ tx.inputs, i.hash.length = 32 ∧ i.rawUnlockingScript.length < 2^64 :=
    fun i hi => ⟨h.enc.hash i hi, by have := h.enc.script i hi; omega⟩
  have i2 : ∀ i ∈ tx.inputs, i.hash.length = 32 ∧ i.rawUnlockingScript.length < 2^62 :=
    fun i hi => ⟨h.enc.hash i hi, h.enc.script i hi⟩
  have o1 : ∀ o ∈ tx.outputs, o.script.length < 2^64 := fun o ho => by have := h.enc.out o ho; omega
  have l1 : tx.inputs.length < 2^64 := by have := h.enc.ins; omega
  have l2 : tx.outputs.length < 2^64 := by have := h.enc.outs; omega
  have ei := insEnd_eq s tx
  have eo := outsEnd_eq s tx
  by_cases c1 : m < (counted (fun i : TxIn => wireIn i.hash i.index (scriptSig i) i.sequence) tx.inputs).length
  · rw [take_lt c1] at hr
    have := readSlots_cut readInput_enc short_input tx.inputs i1 i2 8 h.ins l1 o.inputs b m c1 hr
    refine ⟨fun _ => ?_, fun hc => absurd hc (by omega)⟩
    unfold readIns
    rw [this, andThen_err, leftOuts_none s tx (s + m) o.outputs (by unfold outsStart; omega)]
    have e : leftIns s tx (s + m) o.inputs = if m < (compactSize tx.inputs.length).length ∨ tx.inputs = [] then o.inputs
        else slots (fun i : TxIn => wireIn i.hash i.index (scriptSig i) i.sequence) parsedIn tx.inputs
          (m - (compactSize tx.inputs.length).length) := by
      unfold leftIns insStart
      rw [show s + m - (s + (compactSize tx.inputs.length).length) = m - (compactSize tx.inputs.length).length by omega]
      by_cases c : m < (compactSize tx.inputs.length).length ∨ tx.inputs = []
      · rw [if_pos c, if_pos (c.imp_left fun c => by omega)]
      · have c' : ¬ (s + m < s + (compactSize tx.inputs.length).length ∨ tx.inputs = []) := fun d => c (d.imp_left fun d => by omega)
        rw [if_neg c, if_neg c']
        rfl
    rw [e]
  · rw [take_ge (by omega)] at hr
    obtain ⟨b1, e1, r1⟩ := readSlots_enc readInput_enc tx.inputs i1 8 h.ins l1 o.inputs b _ hr
    have hI : readIns o b = ({ o with inputs := leftIns s tx (s + m) o.inputs }, .ok b1) := by
      unfold readIns
      rw [e1, leftIns_all s tx (s + m) o.inputs (by omega)]
      rfl
    rw [hI, andThen_ok]
    generalize hm1 : m - (counted (fun i : TxIn => wireIn i.hash i.index (scriptSig i) i.sequence) tx.inputs).length = m1 at r1
    by_cases c2 : m1 < (counted wireOut tx.outputs).length
    · rw [take_lt c2] at r1
      have := readSlots_cut readOutput_enc short_output tx.outputs o1 h.enc.out 8 h.outs l2 o.outputs b1 m1 c2 r1
      refine ⟨fun _ => ?_, fun hc => absurd hc (by omega)⟩
      unfold readOuts
      dsimp only
      rw [this, andThen_err]
      have e : leftOuts s tx (s + m) o.outputs = if m1 < (compactSize tx.outputs.length).length ∨ tx.outputs = [] then o.outputs
          else slots wireOut id tx.outputs (m1 - (compactSize tx.outputs.length).length) := by
        unfold leftOuts
        have q : outsStart s tx = insEnd s tx + (compactSize tx.outputs.length).length := rfl
        rw [show s + m - outsStart s tx = m1 - (compactSize tx.outputs.length).length by omega]
        by_cases c : m1 < (compactSize tx.outputs.length).length ∨ tx.outputs = []
        · rw [if_pos c, if_pos (c.imp_left fun c => by omega)]
        · have c' : ¬ (s + m < outsStart s tx ∨ tx.outputs = []) := fun d => c (d.imp_left fun d => by omega)
          rw [if_neg c, if_neg c']
      rw [e]
    · rw [take_ge (by omega)] at r1
      obtain ⟨b2, e2, r2⟩ := readSlots_enc readOutput_enc tx.outputs o1 8 h.outs l2 o.outputs b1 _ r1
      refine ⟨fun hc => absurd hc (by omega), fun _ => ⟨b2, ?_, ?_⟩⟩
      · unfold readOuts
        dsimp only
        rw [e2, andThen_ok, leftOuts_all s tx (s + m) o.outputs (by omega)]
        rfl
      · rw [show s + m - outsEnd s tx = m1 - (counted wireOut tx.outputs).length by omega]
        exact r2

theorem cut_legacy {tx : Transaction} (h : Fits tx) (hs : (wireLegacy tx).length < 2^62) (m : ℕ) (hm : m < (wireLegacy tx).length)
    (o : Obj) : o.deserializeNoWitness ((wireLegacy tx).take m) = (leftLegacy tx m o, .err .bufferShort) := by
  have e0 : wireLegacy tx = (le32 tx.version ++ (counted (fun i : TxIn => wireIn i.hash i.index (scriptSig i) i.sequence) tx.inputs
    ++ (counted wireOut tx.outputs ++ le32 tx.lockTime))) := by
    unfold wireLegacy; rw [le4, le4]; simp only [List.append_assoc]
  have h4 : ∀ v : UInt32, (le32 v).length = 4 := fun _ => rfl
  have hv := h4 tx.version
  have hlt := h4 tx.lockTime
  have ei := insEnd_eq 4 tx
  have eo := outsEnd_eq 4 tx
  have hlen : (wireLegacy tx).length = outsEnd 4 tx + 4 := by
    rw [e0]
    simp only [List.length_append, h4]
    omega
  have hr := rd_reader ((wireLegacy tx).take m) (by rw [List.length_take]; omega)
  have hs0 : 4 < insStart 4 tx := by have := compactSize_pos tx.inputs.length; unfold insStart; omega
  have hs1 : insStart 4 tx ≤ insEnd 4 tx := by unfold insEnd; omega
  have hs2 : insEnd 4 tx < outsStart 4 tx := by have := compactSize_pos tx.outputs.length; unfold outsStart; omega
  unfold deserializeNoWitness readVersion leftLegacy
  generalize hb : reader ((wireLegacy tx).take m) = b at hr
  rw [e0] at hr
  by_cases c0 : m < 4
  · rw [take_lt (by omega)] at hr
    rw [u32_short hr (by rw [List.length_take]; omega), onRes_err, if_pos c0, leftIns_none 4 tx m _ (by omega),
      leftOuts_none 4 tx m _ (by omega), if_pos (by omega)]
  · rw [take_ge (by omega)] at hr
    obtain ⟨b1, e1, r1, _⟩ := readU32_le hr
    rw [e1, onRes_ok, if_neg c0]
    unfold readBody
    dsimp only
    rw [hv] at r1
    have key := insOuts_cut h { o with version := tx.version } b1 4 (m - 4) _ readLockTime r1
    rw [show 4 + (m - 4) = m by omega] at key
    by_cases c1 : m < outsEnd 4 tx
    · rw [key.1 c1, if_pos c1]
    · obtain ⟨b', e2, r2⟩ := key.2 (by omega)
      rw [e2, if_neg c1]
      unfold readLockTime
      rw [u32_short r2 (by rw [List.length_take]; omega), onRes_err]

theorem readStack_enc (size : ℕ) (w : List Bytes) (hw : ∀ x ∈ w, x.length < 2^64) (hl : w.length ≤ makeLimit size)
    (h64 : w.length < 2^64) (b : Buffer) (t : Bytes) (h : Rd b (counted varStr w ++ t)) :
    ∃ b', readStack size b = .ok (w, .ok b') ∧ Rd b' t := by
  unfold counted at h
  rw [compactSize_eq (by omega), List.append_assoc] at h
  obtain ⟨b1, e1, r1, _⟩ := readVarInt_enc h
  obtain ⟨b2, e2, r2⟩ := readSome_enc readVarStr_enc w hw b1 t r1
  have hn : (UInt64.ofNat w.length).toNat = w.length := by rw [UInt64.toNat_ofNat']; omega
  refine ⟨b2, ?_, r2⟩
  unfold readStack
  rw [e1, onRes_ok]
  dsimp only
  rw [hn, if_neg (by omega), e2, stored_full [] id (by simp), List.map_id, List.map_id]

theorem readStack_cut (size : ℕ) (w : List Bytes) (hw : ∀ x ∈ w, x.length < 2^62) (hl : w.length ≤ makeLimit size)
    (h64 : w.length < 2^64) (b : Buffer) (m : ℕ) (hm : m < (counted varStr w).length) (h : Rd b ((counted varStr w).take m)) :
    readStack size b = if m < (compactSize w.length).length then .err .bufferShort
      else .ok (whole varStr w (m - (compactSize w.length).length) ++
        List.replicate (w.length - (whole varStr w (m - (compactSize w.length).length)).length) [], .err .bufferShort) := by
  unfold counted at h hm
  rw [List.length_append] at hm
  rw [compactSize_eq (by omega)] at h hm ⊢
  unfold readStack
  by_cases hc : m < (encVarInt (UInt64.ofNat w.length)).length
  · rw [take_lt hc] at h
    rw [varInt_short hc h, if_pos hc, onRes_err]
  · rw [take_ge (by omega)] at h
    obtain ⟨b1, e1, r1, _⟩ := readVarInt_enc h
    have hn : (UInt64.ofNat w.length).toNat = w.length := by rw [UInt64.toNat_ofNat']; omega
    rw [e1, onRes_ok]
    dsimp only
    rw [hn, if_neg (by omega), readSome_cut readVarStr_enc short_varStr w (fun x hx => by have := hw x hx; omega) hw b1 _ (by omega) r1,
      if_neg hc]
    unfold stored filled
    dsimp only
    rw [List.map_id, List.map_id]

theorem readWits_cut : ∀ (ins : List TxIn), (∀ i ∈ ins, i.witness.length ≤ makeLimit 24 ∧ i.witness.length < 2^62 ∧
      ∀ w ∈ i.witness, w.length < 2^62) → ∀ (b : Buffer) (m : ℕ) (T : Bytes),
    Rd b ((ins.flatMap (fun i => counted varStr i.witness) ++ T).take m) →
    (m < (ins.flatMap fun i => counted varStr i.witness).length →
      readWits (ins.map fun i => some (bareIn i)) b = (leftWits ins m, .err .bufferShort)) ∧
    ((ins.flatMap fun i => counted varStr i.witness).length ≤ m → ∃ b',
      readWits (ins.map fun i => some (bareIn i)) b = (leftWits ins m, .ok b') ∧
      Rd b' (T.take (m - (ins.flatMap fun i => counted varStr i.witness).length)))
  | [], _, b, m, T, h => by
    refine ⟨fun hc => by simp at hc, fun _ => ⟨b, rfl, ?_⟩⟩
    simpa using h
  | i :: ins, ho, b, m, T, h => by
    obtain ⟨hl, h62, hw⟩ := ho i List.mem_cons_self
    rw [List.flatMap_cons, List.length_append, List.map_cons, readWits, leftWits]
    rw [List.flatMap_cons, List.append_assoc] at h
    by_cases c : (counted varStr i.witness).length ≤ m
    · rw [take_ge c] at h
      obtain ⟨b1, e1, r1⟩ := readStack_enc 24 i.witness (fun w hx => by have := hw w hx; omega) hl (by omega) b _ h
      have ih := readWits_cut ins (fun j hj => ho j (List.mem_cons_of_mem _ hj)) b1 _ T r1
      rw [e1, onRes_ok, if_pos c]
      dsimp only
      rw [onRes_ok]
      refine ⟨fun hc => ?_, fun hc => ?_⟩
      · rw [ih.1 (by omega)]
      · obtain ⟨b', e2, r2⟩ := ih.2 (by omega)
        refine ⟨b', by rw [e2], ?_⟩
        rw [show m - ((counted varStr i.witness).length + (ins.flatMap fun i => counted varStr i.witness).length) =
          m - (counted varStr i.witness).length - (ins.flatMap fun i => counted varStr i.witness).length by omega]
        exact r2
    · rw [take_lt (by omega)] at h
      refine ⟨fun _ => ?_, fun hc => absurd hc (by omega)⟩
      rw [readStack_cut 24 i.witness hw hl (by omega) b m (by omega) h, if_neg c]
      by_cases c2 : m < (compactSize i.witness.length).length
      · rw [if_pos c2, if_pos c2, onRes_err]
        rfl
      · rw [if_neg c2, if_neg c2, onRes_ok]
        dsimp only
        rw [onRes_err]

theorem cut_segwit {tx : Transaction} (h : Fits tx) (hne : tx.inputs ≠ []) (hs : (wireSegwit tx).length < 2^62) (m : ℕ)
    (hm : m < (wireSegwit tx).length) (o : Obj) :
    o.deserialize ((wireSegwit tx).take m) = (leftSegwit tx m o, .err .bufferShort) := by
  have e0 : wireSegwit tx = (le32 tx.version ++ ([0, 1] ++ (counted (fun i : TxIn => wireIn i.hash i.index (scriptSig i) i.sequence) tx.inputs
    ++ (counted wireOut tx.outputs ++ (tx.inputs.flatMap (fun i => counted varStr i.witness) ++ le32 tx.lockTime))))) := by
    unfold wireSegwit; rw [le4, le4]; simp only [List.append_assoc]
  have h4 : ∀ v : UInt32, (le32 v).length = 4 := fun _ => rfl
  have hv := h4 tx.version
  have hlt := h4 tx.lockTime
  have ei := insEnd_eq 6 tx
  have eo := outsEnd_eq 6 tx
  have hlen : (wireSegwit tx).length = outsEnd 6 tx + (tx.inputs.flatMap (fun i => counted varStr i.witness)).length + 4 := by
    rw [e0]
    simp only [List.length_append, h4, List.length_cons, List.length_nil]
    omega
  have hr := rd_reader ((wireSegwit tx).take m) (by rw [List.length_take]; omega)
  have hs0 : 6 < insStart 6 tx := by have := compactSize_pos tx.inputs.length; unfold insStart; omega
  have hs1 : insStart 6 tx ≤ insEnd 6 tx := by unfold insEnd; omega
  have hs2 : insEnd 6 tx < outsStart 6 tx := by have := compactSize_pos tx.outputs.length; unfold outsStart; omega
  unfold deserialize readVersion leftSegwit
  rw [hlen] at hm ⊢
  generalize hb : reader ((wireSegwit tx).take m) = b at hr
  rw [e0] at hr
  have early : m < 6 → leftIns 6 tx m o.inputs = o.inputs ∧ leftOuts 6 tx m o.outputs = o.outputs ∧ m < outsEnd 6 tx ∧
      m < outsEnd 6 tx + (tx.inputs.flatMap (fun i => counted varStr i.witness)).length + 4 - 4 := fun hm =>
    ⟨leftIns_none 6 tx m _ (by omega), leftOuts_none 6 tx m _ (by omega), by omega, by omega⟩
  by_cases c0 : m < 4
  · rw [take_lt (by omega)] at hr
    obtain ⟨q1, q2, q3, q4⟩ := early (by omega)
    rw [u32_short hr (by rw [List.length_take]; omega), onRes_err, if_pos c0, if_pos q3, q1, q2, if_pos q4]
  · rw [take_ge (by omega)] at hr
    obtain ⟨b1, e1, r1, _⟩ := readU32_le hr
    rw [e1, onRes_ok, if_neg c0]
    unfold readMarker
    dsimp only
    rw [hv] at r1
    by_cases c1 : m < 6
    · obtain ⟨q1, q2, q3, q4⟩ := early c1
      rw [if_pos q3, q1, q2, if_pos q4]
      rw [take_lt (by simp only [List.length_cons, List.length_nil]; omega)] at r1
      have : m = 4 ∨ m = 5 := by omega
      rcases this with rfl | rfl
      · rcases readU8_cases r1 with ⟨_, e⟩ | ⟨f, t, b', e, _⟩
        · rw [e, onRes_err]
        · simp at e
      · obtain ⟨b2, e2, r2, _⟩ := readU8_ok (v := 0) (t := []) r1
        rw [e2, onRes_ok]
        dsimp only
        rw [if_neg (by decide)]
        rcases readU8_cases r2 with ⟨_, e⟩ | ⟨f, t, b', e, _⟩
        · rw [e, onRes_err]
        · simp at e
    rw [take_ge (by simp only [List.length_cons, List.length_nil]; omega)] at r1
    obtain ⟨b2, e2, r2, _⟩ := readU8_ok r1
    obtain ⟨b3, e3, r3, _⟩ := readU8_ok r2
    rw [e2, onRes_ok]
    dsimp only
    rw [if_neg (by decide), e3, onRes_ok]
    dsimp only
    rw [if_neg (by decide)]
    unfold readBodyWits
    have key := insOuts_cut h { o with version := tx.version } b3 6 (m - 6) _ (fun o b => andThen (readInWits o b) readLockTime)
      (by
        rw [show m - 6 = m - 4 - [(0 : UInt8), 1].length by simp only [List.length_cons, List.length_nil]; omega]
        exact r3)
    rw [show 6 + (m - 6) = m by omega] at key
    by_cases c2 : m < outsEnd 6 tx
    · rw [key.1 c2, if_pos c2, if_pos (by omega)]
    · obtain ⟨b4, e4, r4⟩ := key.2 (by omega)
      rw [e4, if_neg c2]
      rw [leftIns_all 6 tx m _ (by omega), if_neg hne]
      have kw := readWits_cut tx.inputs (fun i hi => ⟨h.wits i hi, h.enc.wit i hi⟩) b4 _ _ r4
      unfold readInWits
      dsimp only
      by_cases c3 : m - outsEnd 6 tx < (tx.inputs.flatMap fun i => counted varStr i.witness).length
      · rw [kw.1 c3, andThen_err, if_pos (by omega)]
      · obtain ⟨b5, e5, r5⟩ := kw.2 (by omega)
        rw [e5, andThen_ok, if_neg (by omega)]
        unfold readLockTime
        rw [u32_short r5 (by rw [List.length_take]; omega), onRes_err]

end Toku.Tx.Obj
