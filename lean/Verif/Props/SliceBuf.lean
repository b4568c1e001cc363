import Verif.Proof.SliceBuf
import Verif.Props.VM
/-
Property C105: the memory of buffers and of the scripts that a script builder gives out.
-/
namespace Toku.Props
open Toku Toku.SliceBuf
open Toku.Slices (Heap Slice Ok elems append capacity array array_set_self writeAt writeAt_length elems_length elems_take append_other)

/-! ### C105 -/

/-- **C105.** Whatever else is in memory, and whatever spare capacity the runtime gives: the writes of a buffer and the calls of a
script builder do what they do on values, and Reset empties. For AddData this needs that the data is out of reach of the
writes, see `C105_own_script`. -/
theorem C105_values (g : ℕ → Bytes) (h : Heap UInt8) (b : Buf) (ok : Ok h b.data) :
    (∀ v, view (writeU8 g h b v).1 (writeU8 g h b v).2 = (view h b).writeU8 v) ∧
    (∀ v, view (writeU16 g h b v).1 (writeU16 g h b v).2 = (view h b).writeU16 v) ∧
    (∀ v, view (writeU32 g h b v).1 (writeU32 g h b v).2 = (view h b).writeU32 v) ∧
    (∀ v, view (writeU64 g h b v).1 (writeU64 g h b v).2 = (view h b).writeU64 v) ∧
    (∀ v, Ok h v → view (writeBytes g h b v).1 (writeBytes g h b v).2 = (view h b).writeBytes (elems h v)) ∧
    (∀ d, Kept h b.data d → view (addData g h b d).1 (addData g h b d).2 = Script.addData (view h b) (elems h d)) ∧
    (∀ v, match addInt64 g h b v with
      | .ok r => Script.addInt64 (view h b) v = .ok (view r.1 r.2)
      | .err e => Script.addInt64 (view h b) v = .err e
      | .panic => Script.addInt64 (view h b) v = .panic) ∧
    view h (reset b) = (view h b).reset ∧
    elems h (bytes b) = (view h b).data := by
  refine ⟨fun v => (writeU8_frame ok v).2, fun v => (writeU16_frame ok v).2, fun v => (writeU32_frame ok v).2,
    fun v => (writeU64_frame ok v).2, fun v hv => (writeBytes_frame ok v).2 hv, fun d hd => (addData_frame ok d).2 hd, fun v => ?_,
    ?_, rfl⟩
  · have := addInt64_frame (g := g) ok v
    cases h' : addInt64 g h b v with
    | ok r => rw [h'] at this; exact this.2
    | err e => rw [h'] at this; exact this
    | panic => rw [h'] at this; exact this
  · simp [view, reset, Buffer.reset, elems]

/-- **C105 (partial:** as long as the builder is not reset). A script taken from a builder keeps its bytes through all later calls. -/
theorem C105_taken_partial (h : Heap UInt8) (b : Buf) (ok : Ok h b.data) (os : List ((ℕ → Bytes) × Op))
    (hr : ∀ o ∈ os, o.2 ≠ .reset) : elems (run h b os).1 (bytes b) = elems h (bytes b) :=
  ((run_frame ok hr).keep _ ⟨ok, .inr (le_refl _)⟩).1

/-- **C105.** And so does every other slice that ends where the buffer ends or before, or is in another array, such as
the data that was added. -/
theorem C105_others (h : Heap UInt8) (b : Buf) (ok : Ok h b.data) (t : Slice) (ht : Kept h b.data t) (os : List ((ℕ → Bytes) × Op))
    (hr : ∀ o ∈ os, o.2 ≠ .reset) : elems (run h b os).1 t = elems h t :=
  ((run_frame ok hr).keep _ ht).1

/-- Script taken from a builder in use: 51 52, then 93 and the data 0a 0b 0c are added. -/
example :
    let g : ℕ → Bytes := fun _ => [0, 0]
    let r := run [[]] ⟨0, 0, ⟨0, 0, 0⟩⟩ [(g, .op 0x51), (g, .op 0x52)]
    let q := run r.1 r.2 [(g, .op 0x93), (g, .outside [0x0a, 0x0b, 0x0c]), (g, .data ⟨2, 0, 3⟩)]
    elems r.1 (bytes r.2) = [0x51, 0x52] ∧ elems q.1 (bytes q.2) = [0x51, 0x52, 0x93, 0x03, 0x0a, 0x0b, 0x0c] ∧
    elems q.1 (bytes r.2) = [0x51, 0x52] := by decide +kernel

/-- A write of one byte into a cell of a slice. -/
private theorem put {g : ℕ → Bytes} {h : Heap UInt8} {s : Slice} (ok : Ok h s) {k : ℕ} (hk : k < s.len) (sk l : ℕ) (v : UInt8) :
    elems (writeU8 g h ⟨sk, l, { s with len := k }⟩ v).1 s = (elems h s).set k v ∧
    Ok (writeU8 g h ⟨sk, l, { s with len := k }⟩ v).1 s ∧
    (writeU8 g h ⟨sk, l, { s with len := k }⟩ v).2 = ⟨sk, l + 1, { s with len := k + 1 }⟩ := by
  have h2 := ok.2
  have hc : k + [v].length ≤ capacity h { s with len := k } := by
    unfold capacity
    change k + 1 ≤ (array h s).length - s.off
    omega
  have e : writeU8 g h ⟨sk, l, { s with len := k }⟩ v =
      (h.set s.arr (writeAt (array h s) (s.off + k) [v]), ⟨sk, l + 1, { s with len := k + 1 }⟩) := by
    unfold writeU8 addLength app append
    dsimp only
    rw [if_pos hc]
    rfl
  have ea : array (h.set s.arr (writeAt (array h s) (s.off + k) [v])) s = writeAt (array h s) (s.off + k) [v] := by
    unfold array
    rw [array_set_self ok.1]
  have hlen : (writeAt (array h s) (s.off + k) [v]).length = (array h s).length := writeAt_length (by simp; omega)
  rw [e]
  refine ⟨?_, ⟨by dsimp only; rw [List.length_set]; exact ok.1, by dsimp only; rw [ea, hlen]; exact h2⟩, rfl⟩
  have ew : writeAt (array h s) (s.off + k) [v] = (array h s).set (s.off + k) v := by
    unfold writeAt
    rw [List.set_eq_take_append_cons_drop, if_pos (by omega)]
    simp
  unfold elems
  dsimp only
  rw [ea, ew, List.drop_set, if_neg (by omega), List.take_set, show s.off + k - s.off = k by omega]

private theorem ops_over {s : Slice} (vs : List ((ℕ → Bytes) × UInt8)) : ∀ {h : Heap UInt8} {k : ℕ} {sk l : ℕ}, Ok h s → k ≤ s.len →
    elems (run h ⟨sk, l, { s with len := k }⟩ (vs.map (fun v => (v.1, .op v.2)))).1 s =
      (elems h s).take k ++ (vs.map Prod.snd).take (s.len - k) ++ (elems h s).drop (k + vs.length) := by
  induction vs with
  | nil =>
    intro h k sk l ok hk
    simp [run]
  | cons v vs ih =>
    intro h k sk l ok hk
    have hlen := elems_length ok
    rcases Nat.lt_or_ge k s.len with hlt | hge
    · obtain ⟨a, b, c⟩ := put (g := v.1) ok hlt sk l v.2
      change elems (run (writeU8 v.1 h ⟨sk, l, { s with len := k }⟩ v.2).1 (writeU8 v.1 h ⟨sk, l, { s with len := k }⟩ v.2).2
        (vs.map (fun v => (v.1, Op.op v.2)))).1 s = _
      rw [c, ih b (by omega), a]
      have t1 : ((elems h s).set k v.2).take (k + 1) = (elems h s).take k ++ [v.2] := by
        rw [List.set_eq_take_append_cons_drop, if_pos (by omega), List.take_append, List.length_take, List.take_take,
          min_eq_right (Nat.le_succ k), show k + 1 - min k (elems h s).length = 1 by omega]
        simp
      have t2 : ((elems h s).set k v.2).drop (k + 1 + vs.length) = (elems h s).drop (k + (v :: vs).length) := by
        rw [List.drop_set_of_lt (by omega), List.length_cons]
        congr 1
        omega
      rw [t1, t2, List.map_cons, show s.len - k = (s.len - (k + 1)) + 1 by omega, List.take_succ_cons]
      simp
    · have hk' : k = s.len := by omega
      subst hk'
      rw [((run_frame (h := h) (b := ⟨sk, l, s⟩) ok (by
        intro o ho
        obtain ⟨w, -, rfl⟩ := List.mem_map.mp ho
        exact fun e => by cases e)).keep s ⟨ok, .inr (le_refl _)⟩).1]
      rw [Nat.sub_self, List.take_zero, List.append_nil, List.drop_eq_nil_of_le (by omega), List.append_nil,
        List.take_of_length_le (by omega)]

/-- **C105.** After Reset, opcodes written to the builder overwrite the script taken before, byte by byte from its start, whatever
capacities there are. -/
theorem C105_reset_overwrites (h : Heap UInt8) (b : Buf) (ok : Ok h b.data) (vs : List ((ℕ → Bytes) × UInt8)) :
    elems (run h (reset b) (vs.map (fun v => (v.1, .op v.2)))).1 (bytes b) =
      (vs.map Prod.snd).take b.data.len ++ (elems h (bytes b)).drop vs.length := by
  have := ops_over (s := b.data) vs (sk := 0) (l := 0) ok (Nat.zero_le _)
  simpa [reset, bytes] using this

/-- **C105.** After Reset, a run of bytes written at once overwrites the start of the script taken before if it fits into the array,
and leaves it alone otherwise. -/
theorem C105_reset_raw (g : ℕ → Bytes) (h : Heap UInt8) (b : Buf) (ok : Ok h b.data) (d : Slice) (hd : Ok h d) :
    elems (writeBytes g h (reset b) d).1 (bytes b) =
      if d.len ≤ capacity h b.data then (elems h d).take b.data.len ++ (elems h (bytes b)).drop d.len else elems h (bytes b) := by
  have hlen := elems_length hd
  have hlb := elems_length ok
  have h2 := ok.2
  unfold writeBytes addLength app append reset bytes
  dsimp only
  rw [hlen, Nat.zero_add]
  have ec : capacity h { b.data with len := 0 } = capacity h b.data := rfl
  rw [ec]
  split
  · next hc =>
    unfold capacity at hc
    have ea : array (h.set b.data.arr (writeAt (array h { b.data with len := 0 }) (b.data.off + 0) (elems h d))) b.data =
        writeAt (array h b.data) b.data.off (elems h d) := by
      unfold array
      rw [array_set_self ok.1]
      rfl
    have e0 : elems (h.set b.data.arr (writeAt (array h { b.data with len := 0 }) (b.data.off + 0) (elems h d))) b.data =
        ((writeAt (array h b.data) b.data.off (elems h d)).drop b.data.off).take b.data.len := by
      show ((array _ b.data).drop b.data.off).take b.data.len = _
      rw [ea]
    rw [e0]
    have e1 : (writeAt (array h b.data) b.data.off (elems h d)).drop b.data.off =
        elems h d ++ (array h b.data).drop (b.data.off + d.len) := by
      unfold writeAt
      rw [List.append_assoc, List.drop_append_of_le_length (by rw [List.length_take]; omega), List.drop_take, Nat.sub_self,
        List.take_zero, List.nil_append, hlen]
    rw [e1, List.take_append, hlen]
    congr 1
    show _ = (((array h b.data).drop b.data.off).take b.data.len).drop d.len
    rw [List.drop_take, List.drop_drop]
  · exact (alloc_ok ok _).2

/-- **C105, negation.** So the claim fails for every builder that has written something: after Reset and one opcode other than the
first byte of the script taken before, that script has changed. -/
theorem C105_negation (g : ℕ → Bytes) (h : Heap UInt8) (b : Buf) (ok : Ok h b.data) (x : UInt8) (xs : Bytes)
    (hx : elems h (bytes b) = x :: xs) (v : UInt8) :
    elems (run h b [(g, .reset), (g, .op v)]).1 (bytes b) = v :: xs := by
  have := C105_reset_overwrites h b ok [(g, v)]
  have hl : b.data.len = xs.length + 1 := by
    have := elems_length ok
    rw [show elems h b.data = x :: xs from hx] at this
    simpa using this.symm
  rw [hx, hl] at this
  simpa [run, step] using this

/-- A script `1` is taken, the builder reset and `2` added: the first script is now `2`. -/
example :
    let g : ℕ → Bytes := fun _ => []
    let r := run [[]] ⟨0, 0, ⟨0, 0, 0⟩⟩ [(g, .op 0x51)]
    Ok r.1 r.2.data ∧ elems r.1 (bytes r.2) = [0x51] ∧
    elems (run r.1 r.2 [(g, .reset), (g, .op 0x52)]).1 (bytes r.2) = [0x52] := by
  unfold Ok
  decide +kernel

/-- **C105, negation for AddData.** The own script of a builder, added after Reset, is added with its first byte replaced by its
length (shown for scripts of 2 to 75 bytes): the opcode is written over it before it is copied. -/
theorem C105_own_script (g : ℕ → Bytes) (h : Heap UInt8) (b : Buf) (ok : Ok h b.data) (x : UInt8) (xs : Bytes)
    (hx : elems h (bytes b) = x :: xs) (h1 : 1 ≤ xs.length) (h2 : xs.length + 1 < 0x4c) :
    let r := addData g h (reset b) (bytes b)
    elems r.1 (bytes r.2) = UInt8.ofNat (xs.length + 1) :: UInt8.ofNat (xs.length + 1) :: xs := by
  have hl : b.data.len = xs.length + 1 := by
    have := elems_length ok
    rw [show elems h b.data = x :: xs from hx] at this
    simpa using this.symm
  obtain ⟨p1, p2, p3⟩ := put (g := g) ok (k := 0) (by omega) 0 0 (UInt8.ofNat (xs.length + 1))
  have e : addData g h (reset b) (bytes b) =
      thenDo (writeU8 g h ⟨0, 0, { b.data with len := 0 }⟩ (UInt8.ofNat (xs.length + 1)))
        (fun h b' => writeBytes (fun i => g (i + 1)) h b' b.data) := by
    unfold addData bytes reset
    dsimp only
    rw [hl, if_neg (by omega), if_neg (by omega), if_neg (by omega), if_neg (by omega), if_pos (by omega)]
  have okw : Ok (writeU8 g h ⟨0, 0, { b.data with len := 0 }⟩ (UInt8.ofNat (xs.length + 1))).1
      (writeU8 g h ⟨0, 0, { b.data with len := 0 }⟩ (UInt8.ofNat (xs.length + 1))).2.data := by
    rw [p3]
    exact p2.shorter (n := 1) (by omega)
  have w := (writeBytes_frame (g := fun i => g (i + 1)) okw b.data).2 p2
  have w3 := congrArg Buffer.data w
  have b3 : elems (writeU8 g h ⟨0, 0, { b.data with len := 0 }⟩ (UInt8.ofNat (xs.length + 1))).1
      (writeU8 g h ⟨0, 0, { b.data with len := 0 }⟩ (UInt8.ofNat (xs.length + 1))).2.data = [UInt8.ofNat (xs.length + 1)] := by
    rw [p3]
    change elems _ { b.data with len := 1 } = _
    rw [elems_take 1 (by omega), p1, show elems h b.data = x :: xs from hx]
    simp
  dsimp only
  rw [e]
  change elems _ _ = _ at w3
  refine w3.trans ?_
  change elems _ _ ++ elems _ _ = _
  rw [b3, p1, show elems h b.data = x :: xs from hx]
  simp

/-- The redeem script 51 52 93, put into the next script of the same builder: 03 51 52 93 is meant, 03 03 52 93 comes out. -/
example :
    let g : ℕ → Bytes := fun _ => [0, 0, 0]
    let r := run [[]] ⟨0, 0, ⟨0, 0, 0⟩⟩ [(g, .op 0x51), (g, .op 0x52), (g, .op 0x93)]
    let q := run r.1 r.2 [(g, .reset), (g, .data (bytes r.2))]
    elems r.1 (bytes r.2) = [0x51, 0x52, 0x93] ∧ elems q.1 (bytes q.2) = [0x03, 0x03, 0x52, 0x93] := by decide +kernel

/-- **C105.** What is read from a buffer is a copy: nothing appended to any slice that was there before changes it, and
appending to it changes no such slice. -/
theorem C105_reads (h : Heap UInt8) (b : Buf) (l : ℤ) :
    match Buffer.readBytes (view h b) l with
    | .ok (v, B) => ∃ t h' b', readBytes h b l = .ok (t, h', b') ∧ elems h' t = v ∧ (Ok h b.data → view h' b' = B) ∧
        ∀ s, Ok h s → ∀ e xs, elems (append e h' s xs).1 t = v ∧ elems (append e h' t xs).1 s = elems h s
    | .err e => readBytes h b l = .err e
    | .panic => readBytes h b l = .panic := by
  unfold readBytes
  change match Buffer.readBytes (view h b) l with | _ => _
  rw [show (⟨b.seek, b.length, elems h b.data⟩ : Buffer) = view h b from rfl]
  cases hr : Buffer.readBytes (view h b) l with
  | err e => rfl
  | panic => rfl
  | ok r =>
    obtain ⟨v, B⟩ := r
    have n := alloc_new h v
    refine ⟨_, _, _, rfl, n.2, ?_, ?_⟩
    · intro ok
      have hB : B.length = b.length ∧ B.data = elems h b.data := by
        unfold Buffer.readBytes at hr
        split at hr
        · cases hr; exact ⟨rfl, rfl⟩
        · cases hc : (view h b).check l with
          | err e => rw [hc] at hr; cases hr
          | panic => rw [hc] at hr; cases hr
          | ok u =>
            rw [hc] at hr
            change (if l < 0 then Res.panic else if _ then Res.panic else Res.ok _) = _ at hr
            split at hr
            · cases hr
            split at hr
            · cases hr
            · cases hr; exact ⟨rfl, rfl⟩
      obtain ⟨B1, B2, B3⟩ := B
      obtain ⟨rfl, rfl⟩ := hB
      unfold view
      dsimp only
      rw [(alloc_ok ok v).2]
    · intro s hs e xs
      have a := alloc_ok hs v
      have hne : s.arr ≠ h.length := by have := hs.1; omega
      exact ⟨(append_other n.1 hne xs).1.trans n.2, (append_other a.1 (fun x => hne x.symm) xs).1.trans a.2⟩

example : readBytes [[1, 2, 3, 4]] (reader ⟨0, 0, 4⟩) 2 = .ok (⟨1, 0, 2⟩, [[1, 2, 3, 4], [1, 2]], ⟨2, 4, ⟨0, 0, 4⟩⟩) := by decide +kernel

/-- **C105, negation for Verify.** A script taken from a builder that goes on adding, used as unlocking script: Verify writes the locking
script over what the builder added meanwhile. The builder's script `1 2` becomes `1 1`. -/
theorem C105_verify_overwrites :
    let g : ℕ → Bytes := fun _ => [0, 0, 0]
    let r := run [[0x51, 0x87]] ⟨0, 0, ⟨0, 0, 0⟩⟩ []
    let n := new r.1
    let one := run n.1 n.2 [(g, .op 0x51)]
    let two := run one.1 one.2 [(g, .op 0x52)]
    let v := Slices.verify toyEnv [] two.1 (bytes one.2) ⟨0, 0, 2⟩ VM.fresh
    elems two.1 (bytes two.2) = [0x51, 0x52] ∧ v.1 = .ok VM.fresh ∧ elems v.2 (bytes two.2) = [0x51, 0x51] := by decide +kernel

end Toku.Props
