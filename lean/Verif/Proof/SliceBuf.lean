import Verif.Spec.SliceBuf
import Verif.Proof.Slices
/-
The buffer in memory: what writes leave alone and what they append. Helper lemmas for Props/SliceBuf.lean.
-/
namespace Toku.SliceBuf
open Toku Toku.Slices

theorem append_kept {e : Bytes} {h : Heap UInt8} {s t : Slice} (hs : Ok h s) (ht : Kept h s t) (xs : Bytes) :
    elems (append e h s xs).1 t = elems h t ∧ Kept (append e h s xs).1 (append e h s xs).2 t := by
  obtain ⟨ok, hd⟩ := ht
  by_cases ha : s.arr = t.arr
  · have hle : t.off + t.len ≤ s.off + s.len := by
      rcases hd with h | h
      · exact absurd ha.symm h
      · exact h
    have h2 := hs.2
    unfold append
    split
    · next hc =>
      unfold capacity at hc
      unfold Kept
      have e1 : array (h.set s.arr (writeAt (array h s) (s.off + s.len) xs)) t = writeAt (array h s) (s.off + s.len) xs := by
        unfold array
        rw [← ha, array_set_self hs.1]
      have e2 : array h t = array h s := by unfold array; rw [ha]
      have hlen : (writeAt (array h s) (s.off + s.len) xs).length = (array h s).length := writeAt_length (by omega)
      refine ⟨?_, ⟨⟨by rw [List.length_set]; exact ok.1, by dsimp only; rw [e1, hlen, ← e2]; exact ok.2⟩, .inr (by dsimp only; omega)⟩⟩
      unfold elems
      rw [e1, e2]
      unfold writeAt
      rw [List.append_assoc, List.drop_append_of_le_length (by rw [List.length_take]; omega),
        List.take_append_of_le_length (by rw [List.length_drop, List.length_take]; omega), List.drop_take, List.take_take,
        min_eq_left (by omega)]
    · unfold Kept
      have e1 : array (h ++ [elems h s ++ xs ++ e]) t = array h t := by unfold array; rw [array_push ok.1]
      refine ⟨by dsimp only; unfold elems at e1 ⊢; rw [e1], ⟨⟨by have := ok.1; dsimp only; rw [List.length_append]; omega, by dsimp only; rw [e1]; exact ok.2⟩, .inl ?_⟩⟩
      have := ok.1
      dsimp only
      omega
  · obtain ⟨a, b⟩ := append_other (extra := e) ok ha xs
    refine ⟨a, b, .inl ?_⟩
    rcases (append_arr e h s xs).1 with e' | e' <;> rw [e']
    · exact fun h => ha h.symm
    · have := ok.1
      omega

/-- What every write guarantees: the buffer stays within its array, and slices out of reach keep their bytes and stay out of
reach. -/
structure Frame (h : Heap UInt8) (b : Buf) (r : Heap UInt8 × Buf) : Prop where
  ok : Ok r.1 r.2.data
  keep : ∀ t, Kept h b.data t → elems r.1 t = elems h t ∧ Kept r.1 r.2.data t

theorem Frame.refl {h : Heap UInt8} {b : Buf} (ok : Ok h b.data) : Frame h b (h, b) := ⟨ok, fun _ ht => ⟨rfl, ht⟩⟩

theorem Frame.trans {h : Heap UInt8} {b : Buf} {r q : Heap UInt8 × Buf} (a : Frame h b r) (c : Frame r.1 r.2 q) : Frame h b q :=
  ⟨c.ok, fun t ht =>
    have x := a.keep t ht
    have y := c.keep t x.2
    ⟨y.1.trans x.1, y.2⟩⟩

theorem app_frame {e : Bytes} {h : Heap UInt8} {b : Buf} (ok : Ok h b.data) (xs : Bytes) :
    Frame h b (app e h b xs) ∧ view (app e h b xs).1 (app e h b xs).2 = ⟨b.seek, b.length, elems h b.data ++ xs⟩ := by
  refine ⟨⟨(append_read ok xs).2, fun t ht => append_kept ok ht xs⟩, ?_⟩
  unfold view app
  rw [(append_read ok xs).1]

theorem appEach_frame (xs : Bytes) : ∀ {g : ℕ → Bytes} {h : Heap UInt8} {b : Buf}, Ok h b.data →
    Frame h b (appEach g h b xs) ∧ view (appEach g h b xs).1 (appEach g h b xs).2 = ⟨b.seek, b.length, elems h b.data ++ xs⟩ := by
  induction xs with
  | nil => intro g h b ok; exact ⟨.refl ok, by simp [view, appEach]⟩
  | cons x xs ih =>
    intro g h b ok
    obtain ⟨f, v⟩ := app_frame (e := g 0) ok [x]
    obtain ⟨f', v'⟩ := ih (g := fun i => g (i + 1)) f.ok
    refine ⟨f.trans f', ?_⟩
    rw [show appEach g h b (x :: xs) = appEach (fun i => g (i + 1)) (app (g 0) h b [x]).1 (app (g 0) h b [x]).2 xs from rfl, v']
    have v1 := congrArg Buffer.seek v
    have v2 := congrArg Buffer.length v
    have v3 := congrArg Buffer.data v
    dsimp only [view] at v1 v2 v3
    rw [v1, v2, v3, List.append_assoc]
    rfl

theorem addLength_frame {h : Heap UInt8} {b : Buf} {r : Heap UInt8 × Buf} {s l : ℕ} {d : Bytes} (n : ℕ) (f : Frame h b r)
    (v : view r.1 r.2 = ⟨s, l, d⟩) :
    Frame h b (addLength r n) ∧ view (addLength r n).1 (addLength r n).2 = ⟨s, l + n, d⟩ := by
  refine ⟨⟨f.ok, f.keep⟩, ?_⟩
  have v1 := congrArg Buffer.seek v
  have v2 := congrArg Buffer.length v
  have v3 := congrArg Buffer.data v
  dsimp only [view] at v1 v2 v3
  unfold view addLength
  rw [v1, v2, v3]

theorem writeU8_frame {g : ℕ → Bytes} {h : Heap UInt8} {b : Buf} (ok : Ok h b.data) (v : UInt8) :
    Frame h b (writeU8 g h b v) ∧ view (writeU8 g h b v).1 (writeU8 g h b v).2 = (view h b).writeU8 v :=
  addLength_frame 1 (app_frame ok [v]).1 (app_frame ok [v]).2

theorem writeU16_frame {g : ℕ → Bytes} {h : Heap UInt8} {b : Buf} (ok : Ok h b.data) (v : UInt32) :
    Frame h b (writeU16 g h b v) ∧ view (writeU16 g h b v).1 (writeU16 g h b v).2 = (view h b).writeU16 v :=
  addLength_frame 2 (appEach_frame _ ok).1 (appEach_frame _ ok).2

theorem writeU32_frame {g : ℕ → Bytes} {h : Heap UInt8} {b : Buf} (ok : Ok h b.data) (v : UInt32) :
    Frame h b (writeU32 g h b v) ∧ view (writeU32 g h b v).1 (writeU32 g h b v).2 = (view h b).writeU32 v :=
  addLength_frame 4 (appEach_frame _ ok).1 (appEach_frame _ ok).2

theorem writeU64_frame {g : ℕ → Bytes} {h : Heap UInt8} {b : Buf} (ok : Ok h b.data) (v : UInt64) :
    Frame h b (writeU64 g h b v) ∧ view (writeU64 g h b v).1 (writeU64 g h b v).2 = (view h b).writeU64 v :=
  addLength_frame 8 (appEach_frame _ ok).1 (appEach_frame _ ok).2

theorem writeBytes_frame {g : ℕ → Bytes} {h : Heap UInt8} {b : Buf} (ok : Ok h b.data) (v : Slice) :
    Frame h b (writeBytes g h b v) ∧
    (Ok h v → view (writeBytes g h b v).1 (writeBytes g h b v).2 = (view h b).writeBytes (elems h v)) := by
  have a := addLength_frame v.len (app_frame (e := g 0) ok (elems h v)).1 (app_frame ok (elems h v)).2
  refine ⟨a.1, fun hv => ?_⟩
  have a2 := a.2
  unfold Buffer.writeBytes
  rw [elems_length hv]
  exact a2

/-- AddData: what it leaves alone, and, for data out of reach of the writes, that it is the AddData of Model/Script.lean. -/
theorem addData_frame {g : ℕ → Bytes} {h : Heap UInt8} {b : Buf} (ok : Ok h b.data) (d : Slice) :
    Frame h b (addData g h b d) ∧
    (Kept h b.data d → view (addData g h b d).1 (addData g h b d).2 = Script.addData (view h b) (elems h d)) := by
  -- a header followed by the data
  have tail : ∀ {r : Heap UInt8 × Buf} {B : Buffer} (g' : ℕ → Bytes), Frame h b r → view r.1 r.2 = B →
      Frame h b (thenDo r (fun h b => writeBytes g' h b d)) ∧
      (Kept h b.data d → view (thenDo r (fun h b => writeBytes g' h b d)).1 (thenDo r (fun h b => writeBytes g' h b d)).2 =
        B.writeBytes (elems h d)) := by
    intro r B g' f v
    have w := writeBytes_frame (g := g') f.ok d
    refine ⟨f.trans w.1, fun hk => ?_⟩
    have k := f.keep d hk
    have w2 := w.2 k.2.1
    rw [v, k.1] at w2
    exact w2
  have one := fun v => writeU8_frame (g := g) ok v
  have hlen : Kept h b.data d → (elems h d).length = d.len := fun hk => elems_length hk.1
  unfold addData Script.addData
  dsimp only
  by_cases c0 : d.len = 0
  · rw [if_pos c0]
    exact ⟨(one _).1, fun hk => by rw [hlen hk, if_pos c0]; exact (one _).2⟩
  rw [if_neg c0]
  by_cases c1 : d.len = 1 ∧ (elems h d).getD 0 0 = 0
  · rw [if_pos c1]
    exact ⟨(one _).1, fun hk => by rw [hlen hk, if_neg c0, if_pos c1]; exact (one _).2⟩
  rw [if_neg c1]
  by_cases c2 : d.len = 1 ∧ (elems h d).getD 0 0 ≤ 16
  · rw [if_pos c2]
    exact ⟨(one _).1, fun hk => by rw [hlen hk, if_neg c0, if_neg c1, if_pos c2]; exact (one _).2⟩
  rw [if_neg c2]
  by_cases c3 : d.len = 1 ∧ (elems h d).getD 0 0 = 0x81
  · rw [if_pos c3]
    exact ⟨(one _).1, fun hk => by rw [hlen hk, if_neg c0, if_neg c1, if_neg c2, if_pos c3]; exact (one _).2⟩
  rw [if_neg c3]
  by_cases c4 : d.len = 1 ∨ d.len < 0x4c
  · rw [if_pos c4]
    have t := tail (fun i => g (i + 1)) (one (UInt8.ofNat d.len)).1 (one (UInt8.ofNat d.len)).2
    exact ⟨t.1, fun hk => by rw [hlen hk, if_neg c0, if_neg c1, if_neg c2, if_neg c3, if_pos c4]; exact t.2 hk⟩
  rw [if_neg c4]
  by_cases c5 : d.len ≤ 0xff
  · rw [if_pos c5]
    have o := one 0x4c
    have p := writeU8_frame (g := fun i => g (i + 1)) o.1.ok (UInt8.ofNat d.len)
    have t := tail (r := thenDo (writeU8 g h b 0x4c) (fun h b => writeU8 (fun i => g (i + 1)) h b (UInt8.ofNat d.len)))
      (fun i => g (i + 2)) (o.1.trans p.1) (p.2.trans (by rw [o.2]))
    exact ⟨t.1, fun hk => by rw [hlen hk, if_neg c0, if_neg c1, if_neg c2, if_neg c3, if_neg c4, if_pos c5]; exact t.2 hk⟩
  rw [if_neg c5]
  by_cases c6 : d.len ≤ 0xffff
  · rw [if_pos c6]
    have o := one 0x4d
    have p := writeU16_frame (g := fun i => g (i + 1)) o.1.ok (UInt32.ofNat d.len)
    have t := tail (r := thenDo (writeU8 g h b 0x4d) (fun h b => writeU16 (fun i => g (i + 1)) h b (UInt32.ofNat d.len)))
      (fun i => g (i + 3)) (o.1.trans p.1) (p.2.trans (by rw [o.2]))
    exact ⟨t.1, fun hk => by rw [hlen hk, if_neg c0, if_neg c1, if_neg c2, if_neg c3, if_neg c4, if_neg c5, if_pos c6]; exact t.2 hk⟩
  rw [if_neg c6]
  have o := one 0x4e
  have p := writeU32_frame (g := fun i => g (i + 1)) o.1.ok (UInt32.ofNat d.len)
  have t := tail (r := thenDo (writeU8 g h b 0x4e) (fun h b => writeU32 (fun i => g (i + 1)) h b (UInt32.ofNat d.len)))
    (fun i => g (i + 5)) (o.1.trans p.1) (p.2.trans (by rw [o.2]))
  exact ⟨t.1, fun hk => by rw [hlen hk, if_neg c0, if_neg c1, if_neg c2, if_neg c3, if_neg c4, if_neg c5, if_neg c6]; exact t.2 hk⟩

/-- New memory elsewhere. -/
theorem alloc_ok {h : Heap UInt8} {t : Slice} (ht : Ok h t) (xs : Bytes) : Ok (h ++ [xs]) t ∧ elems (h ++ [xs]) t = elems h t := by
  have e1 : array (h ++ [xs]) t = array h t := by unfold array; rw [array_push ht.1]
  refine ⟨⟨?_, by rw [e1]; exact ht.2⟩, by unfold elems; rw [e1]⟩
  have := ht.1
  rw [List.length_append]
  omega

theorem alloc_frame {h : Heap UInt8} {b : Buf} (ok : Ok h b.data) (xs : Bytes) : Frame h b (h ++ [xs], b) :=
  ⟨(alloc_ok ok xs).1, fun _ ht => ⟨(alloc_ok ht.1 xs).2, (alloc_ok ht.1 xs).1, ht.2⟩⟩

theorem alloc_new (h : Heap UInt8) (xs : Bytes) : Ok (h ++ [xs]) ⟨h.length, 0, xs.length⟩ ∧
    elems (h ++ [xs]) ⟨h.length, 0, xs.length⟩ = xs := by
  have e1 : array (h ++ [xs]) ⟨h.length, 0, xs.length⟩ = xs := by unfold array; exact array_push_new xs
  refine ⟨⟨by simp, by rw [e1]; simp⟩, by unfold elems; rw [e1]; simp⟩

theorem addInt64_frame {g : ℕ → Bytes} {h : Heap UInt8} {b : Buf} (ok : Ok h b.data) (v : ℤ) :
    match addInt64 g h b v with
    | .ok r => Frame h b r ∧ Script.addInt64 (view h b) v = .ok (view r.1 r.2)
    | .err e => Script.addInt64 (view h b) v = .err e
    | .panic => Script.addInt64 (view h b) v = .panic := by
  unfold addInt64 Script.addInt64
  by_cases c0 : v = 0
  · rw [if_pos c0, if_pos c0]
    exact ⟨(writeU8_frame ok _).1, by rw [(writeU8_frame ok _).2]⟩
  rw [if_neg c0, if_neg c0]
  by_cases c1 : v = -1 ∨ 1 ≤ v ∧ v ≤ 16
  · rw [if_pos c1, if_pos c1]
    exact ⟨(writeU8_frame ok _).1, by rw [(writeU8_frame ok _).2]⟩
  rw [if_neg c1, if_neg c1]
  cases ScriptNum.bytes v with
  | err e => rfl
  | panic => rfl
  | ok d =>
    have f := alloc_frame ok d
    have n := alloc_new h d
    have a := addData_frame (g := g) f.ok ⟨h.length, 0, d.length⟩
    have hk : Kept (h ++ [d]) b.data ⟨h.length, 0, d.length⟩ := by
      refine ⟨n.1, .inl ?_⟩
      have := ok.1
      dsimp only
      omega
    refine ⟨f.trans a.1, ?_⟩
    have a2 := a.2 hk
    rw [n.2] at a2
    have e : view (h ++ [d]) b = view h b := by unfold view; rw [(alloc_ok ok d).2]
    rw [e] at a2
    exact (congrArg Res.ok a2).symm

/-- Every call but Reset. -/
theorem step_frame {g : ℕ → Bytes} {h : Heap UInt8} {b : Buf} (ok : Ok h b.data) {o : Op} (ho : o ≠ .reset) : Frame h b (step g h b o) := by
  cases o with
  | op v => exact (writeU8_frame ok v).1
  | data d => exact (addData_frame ok d).1
  | int v =>
    have := addInt64_frame (g := g) ok v
    cases h' : addInt64 g h b v with
    | ok r => rw [h'] at this; simp only [step, h']; exact this.1
    | err e => simp only [step, h']; exact .refl ok
    | panic => simp only [step, h']; exact .refl ok
  | raw d => exact (writeBytes_frame ok d).1
  | reset => exact absurd rfl ho
  | outside xs => exact alloc_frame ok xs

theorem run_frame {os : List ((ℕ → Bytes) × Op)} : ∀ {h : Heap UInt8} {b : Buf}, Ok h b.data → (∀ o ∈ os, o.2 ≠ .reset) →
    Frame h b (run h b os) := by
  induction os with
  | nil => intro h b ok _; exact .refl ok
  | cons o os ih =>
    intro h b ok hr
    have f := step_frame (g := o.1) ok (hr o (.head _))
    exact f.trans (ih f.ok (fun o' ho => hr o' (.tail _ ho)))

end Toku.SliceBuf
