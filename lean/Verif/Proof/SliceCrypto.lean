import Verif.Model.SliceCrypto
import Verif.Proof.SliceBuf
/-
Nonces and derived keys computed in shared memory. Helper lemmas for Props/SliceCrypto.lean.
-/
namespace Toku.SliceCrypto
open Toku Toku.Slices
open Toku.SliceBuf (Kept append_kept)

theorem app_self {g : Grow} {h : Heap UInt8} {s : Slice} (ok : Ok h s) (xs : Bytes) :
    elems (app g h s xs).1 (app g h s xs).2 = elems h s ++ xs ∧ Ok (app g h s xs).1 (app g h s xs).2 := append_read ok xs

theorem app_apart {g : Grow} {h : Heap UInt8} {s t : Slice} (ht : Ok h t) (hne : t.arr ≠ s.arr) (xs : Bytes) :
    elems (app g h s xs).1 t = elems h t ∧ Ok (app g h s xs).1 t ∧ t.arr ≠ (app g h s xs).2.arr := by
  obtain ⟨a, b⟩ := append_other (extra := g h) ht (fun e => hne e.symm) xs
  refine ⟨a, b, ?_⟩
  unfold app
  rcases (append_arr (g h) h s xs).1 with e | e <;> rw [e]
  · exact hne
  · have := ht.1
    omega

theorem app_low {g : Grow} {h : Heap UInt8} {s : Slice} {n : ℕ} (h1 : n ≤ s.arr) (h2 : n ≤ h.length) (xs : Bytes) :
    n ≤ (app g h s xs).2.arr ∧ n ≤ (app g h s xs).1.length := by
  unfold app
  obtain ⟨a, b⟩ := append_arr (g h) h s xs
  refine ⟨?_, by omega⟩
  rcases a with e | e <;> rw [e] <;> assumption

/-- The slices of `h0` are there and have their bytes. -/
def Old (h0 h : Heap UInt8) : Prop := h0.length ≤ h.length ∧ ∀ t, Ok h0 t → Ok h t ∧ elems h t = elems h0 t

theorem Old.refl (h : Heap UInt8) : Old h h := ⟨le_refl _, fun _ ht => ⟨ht, rfl⟩⟩

theorem Old.trans {a b c : Heap UInt8} (x : Old a b) (y : Old b c) : Old a c :=
  ⟨x.1.trans y.1, fun t ht =>
    have p := x.2 t ht
    have q := y.2 t p.1
    ⟨q.1, q.2.trans p.2⟩⟩

theorem old_app {g : Grow} {h0 h : Heap UInt8} {s : Slice} (o : Old h0 h) (hs : h0.length ≤ s.arr) (xs : Bytes) : Old h0 (app g h s xs).1 := by
  refine ⟨(app_low hs o.1 xs).2, fun t ht => ?_⟩
  obtain ⟨a, b⟩ := o.2 t ht
  have hne : t.arr ≠ s.arr := by have := ht.1; omega
  obtain ⟨c, d, _⟩ := app_apart (g := g) a hne xs
  exact ⟨d, c.trans b⟩

theorem push_old (h : Heap UInt8) (xs : Bytes) : Old h (h ++ [xs]) :=
  ⟨by simp, fun _ ht => SliceBuf.alloc_ok ht xs⟩

theorem alloc_facts (g : Grow) (h : Heap UInt8) (xs : Bytes) :
    Old h (alloc g h xs).1 ∧ Ok (alloc g h xs).1 (alloc g h xs).2 ∧ elems (alloc g h xs).1 (alloc g h xs).2 = xs ∧
    (alloc g h xs).2.arr = h.length ∧ (alloc g h xs).1.length = h.length + 1 := by
  unfold alloc
  have e1 : array (h ++ [xs ++ g h]) ⟨h.length, 0, xs.length⟩ = xs ++ g h := by unfold array; exact array_push_new _
  refine ⟨push_old h _, ⟨by simp, by dsimp only; rw [e1]; simp⟩, ?_, rfl, by simp⟩
  show ((array _ _).drop 0).take xs.length = xs
  rw [e1]
  simp

/-- Two slices of different arrays, both newer than `h0`. -/
structure Inv (h0 h : Heap UInt8) (k v : Slice) : Prop where
  okk : Ok h k
  okv : Ok h v
  ne : k.arr ≠ v.arr
  lok : h0.length ≤ k.arr
  lov : h0.length ≤ v.arr
  old : Old h0 h

theorem Inv.symm {h0 h : Heap UInt8} {k v : Slice} (i : Inv h0 h k v) : Inv h0 h v k := ⟨i.okv, i.okk, i.ne.symm, i.lov, i.lok, i.old⟩

theorem elems_zero (h : Heap UInt8) (s : Slice) : elems h { s with len := 0 } = [] := by unfold elems; simp

/-- Overwriting one of the two from its start. -/
theorem Inv.put {g : Grow} {h0 h : Heap UInt8} {k v : Slice} (i : Inv h0 h k v) (xs : Bytes) :
    Inv h0 (app g h { k with len := 0 } xs).1 (app g h { k with len := 0 } xs).2 v ∧
    elems (app g h { k with len := 0 } xs).1 (app g h { k with len := 0 } xs).2 = xs ∧
    elems (app g h { k with len := 0 } xs).1 v = elems h v := by
  have ok0 : Ok h { k with len := 0 } := i.okk.shorter (Nat.zero_le _)
  obtain ⟨a, b⟩ := app_self (g := g) ok0 xs
  obtain ⟨c, d, e⟩ := app_apart (g := g) (s := { k with len := 0 }) i.okv (fun x => i.ne x.symm) xs
  rw [elems_zero, List.nil_append] at a
  exact ⟨⟨b, d, e.symm, (app_low (s := { k with len := 0 }) i.lok i.old.1 xs).1, i.lov, old_app (s := { k with len := 0 }) i.old i.lok xs⟩, a, c⟩

/-- Appending to one of the two and keeping the shorter slice. -/
theorem Inv.add {g : Grow} {h0 h : Heap UInt8} {k v w : Slice} (i : Inv h0 h k v) (okw : Ok h w) (hk : k.arr ≠ w.arr) (hlw : h0.length ≤ w.arr)
    (kept : Kept h w v) (xs : Bytes) :
    Inv h0 (app g h w xs).1 k v ∧ Ok (app g h w xs).1 (app g h w xs).2 ∧ k.arr ≠ (app g h w xs).2.arr ∧ h0.length ≤ (app g h w xs).2.arr ∧
    Kept (app g h w xs).1 (app g h w xs).2 v ∧ elems (app g h w xs).1 (app g h w xs).2 = elems h w ++ xs ∧
    elems (app g h w xs).1 k = elems h k ∧ elems (app g h w xs).1 v = elems h v := by
  obtain ⟨a, b⟩ := app_self (g := g) okw xs
  obtain ⟨c, d, e⟩ := app_apart (g := g) i.okk hk xs
  obtain ⟨p, q⟩ := append_kept (e := g h) okw kept xs
  exact ⟨⟨d, q.1, i.ne, i.lok, i.lov, old_app i.old hlw xs⟩, b, e, (app_low hlw i.old.1 xs).1, q, a, c, p⟩

section
variable [Hashes]

theorem mac_first {g : Grow} {h0 h : Heap UInt8} {k v : Slice} (i : Inv h0 h k v) (k' m : Slice) :
    Inv h0 (mac g h k' m k).1 (mac g h k' m k).2 v ∧
    elems (mac g h k' m k).1 (mac g h k' m k).2 = hmac256 (elems h k') (elems h m) ∧
    elems (mac g h k' m k).1 v = elems h v := i.put _

theorem macV_facts {g : Grow} {h0 h : Heap UInt8} {k v bx : Slice} (i : Inv h0 h k v) (c : UInt8) (hb : Ok h0 bx) :
    Inv h0 (macV g h k v c bx).1 (macV g h k v c bx).2 v ∧
    elems (macV g h k v c bx).1 (macV g h k v c bx).2 = hmac256 (elems h k) (elems h v ++ [c] ++ elems h0 bx) ∧
    elems (macV g h k v c bx).1 v = elems h v := by
  unfold macV
  dsimp only
  obtain ⟨i1, o1, n1, l1, kp1, e1, ek1, ev1⟩ := i.add (g := g) i.okv i.ne i.lov ⟨i.okv, .inr (le_refl _)⟩ [c]
  obtain ⟨i2, -, -, -, -, e2, ek2, ev2⟩ := i1.add (g := g) o1 n1 l1 kp1 (elems (app g h v [c]).1 bx)
  obtain ⟨a, b, d⟩ := mac_first (g := g) i2 k (app g (app g h v [c]).1 (app g h v [c]).2 (elems (app g h v [c]).1 bx)).2
  refine ⟨a, ?_, d.trans (ev2.trans ev1)⟩
  rw [b, e2, e1, ek2, ek1, (i1.old.2 bx hb).2]

theorem fill_facts {g : Grow} {h0 : Heap UInt8} {k : Slice} {want : ℕ} (n : ℕ) : ∀ {h : Heap UInt8} {v t : Slice}, Inv h0 h k v →
    Ok h t → k.arr ≠ t.arr → v.arr ≠ t.arr → h0.length ≤ t.arr →
    let r := fill g k want n h v t
    Inv h0 r.1 k r.2.1 ∧ Ok r.1 r.2.2 ∧ elems r.1 k = elems h k ∧
    (elems r.1 r.2.1, elems r.1 r.2.2) = Ecdsa.fill (elems h k) want n (elems h v) (elems h t) := by
  induction n with
  | zero => intro h v t i okt _ _ _; exact ⟨i, okt, rfl, rfl⟩
  | succ n ih =>
    intro h v t i okt hkt hvt hlt
    have hl := elems_length okt
    unfold fill Ecdsa.fill
    rw [hl]
    by_cases c : t.len < want
    · rw [if_pos c, if_pos c]
      dsimp only
      -- v changes
      obtain ⟨i1, e1, ek1⟩ := mac_first (g := g) i.symm k v
      obtain ⟨et1, ot1, hvt1⟩ := app_apart (g := g) (s := { v with len := 0 }) okt (fun x => hvt x.symm) (hmac256 (elems h k) (elems h v))
      change elems (mac g h k v v).1 t = _ at et1
      change Ok (mac g h k v v).1 t at ot1
      change t.arr ≠ (mac g h k v v).2.arr at hvt1
      -- t grows
      obtain ⟨e2, o2⟩ := app_self (g := g) ot1 (elems (mac g h k v v).1 (mac g h k v v).2)
      obtain ⟨ek2, ok2, hk2⟩ := app_apart (g := g) i1.okv hkt (elems (mac g h k v v).1 (mac g h k v v).2)
      obtain ⟨ev2, ov2, hv2⟩ := app_apart (g := g) i1.okk hvt1.symm (elems (mac g h k v v).1 (mac g h k v v).2)
      have i2 : Inv h0 (app g (mac g h k v v).1 t (elems (mac g h k v v).1 (mac g h k v v).2)).1 k (mac g h k v v).2 :=
        ⟨ok2, ov2, i1.ne.symm, i1.lov, i1.lok, old_app i1.old hlt _⟩
      obtain ⟨r1, r2, r3, r4⟩ := ih i2 o2 hk2 hv2 (app_low hlt i1.old.1 _).1
      refine ⟨r1, r2, r3.trans (ek2.trans ek1), ?_⟩
      rw [r4, ek2, ek1, ev2, e2, e1, et1]
    · rw [if_neg c, if_neg c]
      exact ⟨i, okt, rfl, rfl⟩

theorem nonceLoop_facts {g : Grow} {h0 : Heap UInt8} {q qlen : ℕ} (fuel : ℕ) : ∀ {h : Heap UInt8} {k v : Slice}, Inv h0 h k v →
    (nonceLoop g q qlen fuel h k v).2 = Ecdsa.nonceLoop q qlen fuel (elems h k) (elems h v) ∧
    Old h0 (nonceLoop g q qlen fuel h k v).1 := by
  induction fuel with
  | zero => intro h k v i; exact ⟨rfl, i.old⟩
  | succ fuel ih =>
    intro h k v i
    have p := push_old h []
    have pk := p.2 k i.okk
    have pv := p.2 v i.okv
    have i0 : Inv h0 (h ++ [[]]) k v := ⟨pk.1, pv.1, i.ne, i.lok, i.lov, i.old.trans p⟩
    have okt : Ok (h ++ [[]]) ⟨h.length, 0, 0⟩ := ⟨by simp, by simp⟩
    have et : elems (h ++ [[]]) ⟨h.length, 0, 0⟩ = [] := by simp [elems]
    obtain ⟨f1, f2, f3, f4⟩ := fill_facts (g := g) (want := qlen / 8) qlen i0 okt (by have := i.okk.1; dsimp only; omega)
      (by have := i.okv.1; dsimp only; omega) i.old.1
    rw [et, pk.2, pv.2] at f4
    unfold nonceLoop Ecdsa.nonceLoop
    rw [← f4]
    rw [pk.2] at f3
    dsimp only
    split
    · exact ⟨rfl, f1.old⟩
    · generalize fill g k (qlen / 8) qlen (h ++ [[]]) v ⟨h.length, 0, 0⟩ = r at f1 f2 f3 f4 ⊢
      obtain ⟨hh, vv, tt⟩ := r
      dsimp only at f1 f2 f3 f4 ⊢
      obtain ⟨i1, o1, n1, l1, kp1, e1, ek1, ev1⟩ := f1.add (g := g) f1.okv f1.ne f1.lov ⟨f1.okv, .inr (le_refl _)⟩ [0]
      obtain ⟨a, b, d⟩ := mac_first (g := g) i1 k (app g hh vv [0]).2
      obtain ⟨a', b', d'⟩ := mac_first (g := g) a.symm (mac g (app g hh vv [0]).1 k (app g hh vv [0]).2 k).2 vv
      obtain ⟨x, y⟩ := ih a'.symm
      refine ⟨?_, y⟩
      rw [x, b', d', b, d, ev1, ek1, e1, f3]

theorem nonce_facts {g : Grow} {q fuel x : ℕ} {h : Heap UInt8} {hash : Slice} (hh : Ok h hash) :
    (nonce g q fuel x h hash).2 = Ecdsa.nonce q fuel x (elems h hash) ∧ Old h (nonce g q fuel x h hash).1 := by
  unfold nonce Ecdsa.nonce
  dsimp only
  obtain ⟨o1, ok1, e1, a1, l1⟩ := alloc_facts g h (Ecdsa.int2octets x ((Ecdsa.bitLen q + 7) / 8))
  generalize alloc g h (Ecdsa.int2octets x ((Ecdsa.bitLen q + 7) / 8)) = X at *
  rw [(o1.2 hash hh).2]
  generalize hbo : Ecdsa.bits2octets (elems h hash) q (Ecdsa.bitLen q) ((Ecdsa.bitLen q + 7) / 8) = bo
  obtain ⟨e2, ok2⟩ := app_self (g := g) ok1 bo
  have o2 : Old h (app g X.1 X.2 bo).1 := old_app o1 (by omega) bo
  rw [e1] at e2
  generalize app g X.1 X.2 bo = B at *
  obtain ⟨o3, ok3, e3, a3, l3⟩ := alloc_facts g B.1 (List.replicate 32 1)
  generalize alloc g B.1 (List.replicate 32 1) = V at *
  obtain ⟨o4, ok4, e4, a4, l4⟩ := alloc_facts g V.1 (List.replicate 32 0)
  generalize alloc g V.1 (List.replicate 32 0) = K at *
  have hv := o4.2 V.2 ok3
  have i0 : Inv B.1 K.1 K.2 V.2 := ⟨ok4, hv.1, by omega, by omega, by omega, o3.trans o4⟩
  obtain ⟨i1, f1, g1⟩ := macV_facts (g := g) i0 0 ok2
  generalize macV g K.1 K.2 V.2 0 B.2 = K1 at *
  obtain ⟨i2, f2, g2⟩ := mac_first (g := g) i1.symm K1.2 V.2
  generalize mac g K1.1 K1.2 V.2 V.2 = V1 at *
  obtain ⟨i3, f3, g3⟩ := macV_facts (g := g) i2.symm 1 ok2
  generalize macV g V1.1 K1.2 V1.2 1 B.2 = K2 at *
  obtain ⟨i4, f4, g4⟩ := mac_first (g := g) i3.symm K2.2 V1.2
  generalize mac g K2.1 K2.2 V1.2 V1.2 = V2 at *
  obtain ⟨r1, r2⟩ := nonceLoop_facts (g := g) (q := q) (qlen := Ecdsa.bitLen q) fuel i4.symm
  refine ⟨?_, o2.trans r2⟩
  rw [r1, f4, g4, f3, g3, f2, g2, f1, g1, e4, hv.2, e3, e2]

end

/-! ### pbkdf2 -/

theorem overwrite_facts {h : Heap UInt8} {d : Slice} (ok : Ok h d) {src : Bytes} (hl : src.length = d.len) :
    elems (overwrite h d src) d = src ∧ (∀ t, (array (overwrite h d src) t).length = (array h t).length) ∧
    (overwrite h d src).length = h.length ∧
    (∀ t, Ok h t → Ok (overwrite h d src) t) ∧
    (∀ t, t.arr ≠ d.arr ∨ t.off + t.len ≤ d.off → elems (overwrite h d src) t = elems h t) := by
  have h2 := ok.2
  have ea : array (overwrite h d src) d = writeAt (array h d) d.off src := by
    unfold overwrite array
    rw [array_set_self ok.1]
  have ed : ∀ t : Slice, t.arr = d.arr → array (overwrite h d src) t = writeAt (array h d) d.off src := by
    intro t e
    rw [← ea]
    unfold array
    rw [e]
  have en : ∀ t : Slice, t.arr ≠ d.arr → array (overwrite h d src) t = array h t := by
    intro t e
    unfold overwrite array
    rw [array_set_ne (fun x => e x.symm)]
  have hlen : ∀ t, (array (overwrite h d src) t).length = (array h t).length := by
    intro t
    by_cases e : t.arr = d.arr
    · rw [ed t e, writeAt_length (by omega)]
      unfold array
      rw [e]
    · rw [en t e]
  refine ⟨?_, hlen, by unfold overwrite; simp, fun t ht => ⟨by unfold overwrite; simpa using ht.1, by rw [hlen]; exact ht.2⟩, ?_⟩
  · show ((array _ d).drop d.off).take d.len = src
    rw [ea]
    unfold writeAt
    rw [List.append_assoc, List.drop_append_of_le_length (by rw [List.length_take]; omega), List.drop_take, Nat.sub_self, List.take_zero,
      List.nil_append, List.take_append_of_le_length (by omega), List.take_of_length_le (by omega)]
  · intro t ht
    by_cases e : t.arr = d.arr
    · have hle : t.off + t.len ≤ d.off := by
        rcases ht with x | x
        · exact absurd e x
        · exact x
      show ((array _ t).drop t.off).take t.len = ((array h t).drop t.off).take t.len
      rw [ed t e, show array h t = array h d by unfold array; rw [e]]
      unfold writeAt
      rw [List.append_assoc, List.drop_append_of_le_length (by rw [List.length_take]; omega),
        List.take_append_of_le_length (by rw [List.length_drop, List.length_take]; omega), List.drop_take, List.take_take,
        min_eq_left (by omega)]
    · show ((array _ t).drop t.off).take t.len = ((array h t).drop t.off).take t.len
      rw [en t e]

theorem old_overwrite {h0 h : Heap UInt8} {d : Slice} (o : Old h0 h) (hd : h0.length ≤ d.arr) (ok : Ok h d) {src : Bytes} (hl : src.length = d.len) :
    Old h0 (overwrite h d src) := by
  obtain ⟨-, -, l, k, e⟩ := overwrite_facts ok hl
  refine ⟨by rw [l]; exact o.1, fun t ht => ?_⟩
  obtain ⟨a, b⟩ := o.2 t ht
  have := ht.1
  exact ⟨k t a, (e t (.inl (by omega))).trans b⟩

theorem app_array {g : Grow} {h : Heap UInt8} {s t : Slice} (ht : t.arr < h.length) (hne : t.arr ≠ s.arr) (xs : Bytes) :
    array (app g h s xs).1 t = array h t := by
  unfold app append array
  split
  · exact array_set_ne (fun e => hne e.symm) _
  · exact array_push ht _

variable {prf : Bytes → Bytes} {hashLen : ℕ}

theorem xor_length (a b : Bytes) (h : a.length = b.length) : (Pbkdf2.xorBytes a b).length = a.length := by
  unfold Pbkdf2.xorBytes
  rw [List.length_zipWith, h, min_self]

theorem inner_facts {g : Grow} {h0 : Heap UInt8} {T P : Slice} (hp : ∀ m, (prf m).length = hashLen) (hT : T.len = hashLen) (hPT : P.arr = T.arr)
    (hPo : P.off + P.len ≤ T.off) (n : ℕ) : ∀ {h : Heap UInt8} {U : Slice}, Inv h0 h T U → U.len = hashLen → Ok h P →
    let r := inner g prf T n h U
    Inv h0 r.1 T r.2 ∧ r.2.len = hashLen ∧ elems r.1 P = elems h P ∧ (array r.1 T).length = (array h T).length ∧
    (elems r.1 r.2, elems r.1 T) = Pbkdf2.inner prf n (elems h U, elems h T) := by
  induction n with
  | zero => intro h U i hU _; exact ⟨i, hU, rfl, rfl, rfl⟩
  | succ n ih =>
    intro h U i hU okP
    obtain ⟨i1, e1, eT⟩ := i.symm.put (g := g) (prf (elems h U))
    have hneP : P.arr ≠ ({ U with len := 0 } : Slice).arr := by rw [hPT]; exact i.ne
    obtain ⟨eP, oP, -⟩ := app_apart (g := g) (s := { U with len := 0 }) okP hneP (prf (elems h U))
    have aT := app_array (g := g) (s := { U with len := 0 }) i.okk.1 i.ne (prf (elems h U))
    unfold inner Pbkdf2.inner
    dsimp only
    generalize app g h { U with len := 0 } (prf (elems h U)) = r at *
    have l1 : r.2.len = hashLen := by rw [← elems_length i1.okk, e1, hp]
    have lx : (Pbkdf2.xorBytes (elems r.1 T) (elems r.1 r.2)).length = T.len := by
      rw [xor_length _ _ (by rw [elems_length i1.okv, elems_length i1.okk, l1, hT]), elems_length i1.okv]
    obtain ⟨w1, w2, -, w3, w4⟩ := overwrite_facts i1.okv lx
    have i2 : Inv h0 (overwrite r.1 T (Pbkdf2.xorBytes (elems r.1 T) (elems r.1 r.2))) T r.2 :=
      ⟨w3 _ i1.okv, w3 _ i1.okk, i1.ne.symm, i1.lov, i1.lok, old_overwrite i1.old i1.lov i1.okv lx⟩
    obtain ⟨r1, r2, r3, r4, r5⟩ := ih i2 l1 (w3 _ oP)
    refine ⟨r1, r2, r3.trans ((w4 P (.inr hPo)).trans eP), r4.trans ((w2 T).trans (by rw [aT])), ?_⟩
    rw [r5, w1, w4 r.2 (.inl i1.ne), e1, eT]

theorem elems_split {h : Heap UInt8} {s : Slice} {n : ℕ} (hn : n ≤ s.len) :
    elems h s = elems h { s with len := n } ++ elems h ⟨s.arr, s.off + n, s.len - n⟩ := by
  rw [elems_take n hn, elems_drop n, List.take_append_drop]

theorem outer_facts {g : Grow} {h0 : Heap UInt8} {salt : Slice} {iter : ℤ} (hp : ∀ m, (prf m).length = hashLen) (hs : Ok h0 salt) (n : ℕ) :
    ∀ {h : Heap UInt8} {block : ℕ} {dk U : Slice}, Inv h0 h dk U → U.len = hashLen →
    let r := outer g prf hashLen salt iter n block h dk U
    Old h0 r.1 ∧ Ok r.1 r.2 ∧ elems r.1 r.2 = Pbkdf2.outer prf (elems h0 salt) iter n block (elems h dk) ∧
    r.2.len = dk.len + n * hashLen ∧ (dk.len + n * hashLen ≤ capacity h dk → capacity r.1 r.2 = capacity h dk) := by
  induction n with
  | zero => intro h block dk U i hU; exact ⟨i.old, i.okk, rfl, by simp [outer], fun _ => rfl⟩
  | succ n ih =>
    intro h block dk U i hU
    unfold outer Pbkdf2.outer
    dsimp only
    have hsalt := (i.old.2 salt hs).2
    rw [hsalt]
    have hu1 := hp (elems h0 salt ++ Pbkdf2.blockBytes block)
    generalize prf (elems h0 salt ++ Pbkdf2.blockBytes block) = u1 at *
    obtain ⟨e1, o1⟩ := app_self (g := g) i.okk u1
    obtain ⟨eU, oU, nU⟩ := app_apart (g := g) i.okv (fun x => i.ne x.symm) u1
    have low := (app_low (g := g) i.lok i.old.1 u1).1
    have old1 := old_app (g := g) i.old i.lok u1
    have cap1 : dk.len + hashLen ≤ capacity h dk → capacity (app g h dk u1).1 (app g h dk u1).2 = capacity h dk := by
      intro hc
      unfold app append
      rw [if_pos (by rw [hu1]; exact hc)]
      unfold capacity at hc ⊢
      unfold array at hc ⊢
      dsimp only
      rw [array_set_self i.okk.1, writeAt_length]
      have := i.okk.2
      unfold array at this
      omega
    have hl1 : (app g h dk u1).2.len = dk.len + hashLen := by
      rw [← elems_length o1, e1, List.length_append, elems_length i.okk, hu1]
    generalize app g h dk u1 = d at *
    have hTn : d.2.len - (d.2.len - hashLen) = hashLen := by omega
    have spl := elems_split (h := d.1) (s := d.2) (n := d.2.len - hashLen) (by omega)
    rw [hTn] at spl
    have okP : Ok d.1 { d.2 with len := d.2.len - hashLen } := o1.shorter (by omega)
    have okT : Ok d.1 ⟨d.2.arr, d.2.off + (d.2.len - hashLen), hashLen⟩ := ⟨o1.1, by have := o1.2; change _ + _ ≤ (array d.1 d.2).length; dsimp only; omega⟩
    have lenP : (elems d.1 { d.2 with len := d.2.len - hashLen }).length = dk.len := by rw [elems_length okP]; dsimp only; omega
    have inj := List.append_inj (e1.symm.trans spl) (by rw [lenP, elems_length i.okk])
    -- copy(U, T)
    have lT : (elems d.1 ⟨d.2.arr, d.2.off + (d.2.len - hashLen), hashLen⟩).length = U.len := by rw [elems_length okT, hU]
    obtain ⟨w1, w2, -, w3, w4⟩ := overwrite_facts oU lT
    have i2 : Inv h0 (overwrite d.1 U (elems d.1 ⟨d.2.arr, d.2.off + (d.2.len - hashLen), hashLen⟩))
        ⟨d.2.arr, d.2.off + (d.2.len - hashLen), hashLen⟩ U :=
      ⟨w3 _ okT, w3 _ oU, nU.symm, low, i.lov, old_overwrite old1 i.lov oU lT⟩
    obtain ⟨r1, r2, r3, r4, r5⟩ := inner_facts (g := g) hp (T := ⟨d.2.arr, d.2.off + (d.2.len - hashLen), hashLen⟩)
      (P := { d.2 with len := d.2.len - hashLen }) rfl rfl (le_refl _) (iter - 1).toNat i2 hU (w3 _ okP)
    rw [w1, w4 ⟨d.2.arr, d.2.off + (d.2.len - hashLen), hashLen⟩ (.inl nU.symm)] at r5
    rw [w4 { d.2 with len := d.2.len - hashLen } (.inl nU.symm)] at r3
    rw [w2] at r4
    have okd : Ok (overwrite d.1 U (elems d.1 ⟨d.2.arr, d.2.off + (d.2.len - hashLen), hashLen⟩)) d.2 := w3 _ o1
    generalize inner g prf ⟨d.2.arr, d.2.off + (d.2.len - hashLen), hashLen⟩ (iter - 1).toNat
      (overwrite d.1 U (elems d.1 ⟨d.2.arr, d.2.off + (d.2.len - hashLen), hashLen⟩)) U = r at *
    have okd' : Ok r.1 d.2 := ⟨r1.okk.1, by
      have := o1.2
      change (array r.1 d.2).length = (array d.1 d.2).length at r4
      omega⟩
    have i3 : Inv h0 r.1 d.2 r.2 := ⟨okd', r1.okv, r1.ne, low, r1.lov, r1.old⟩
    obtain ⟨q1, q2, q3, q5, q4⟩ := ih (block := block + 1) i3 r2
    have spl' := elems_split (h := r.1) (s := d.2) (n := d.2.len - hashLen) (by omega)
    rw [hTn] at spl'
    have capd : capacity r.1 d.2 = capacity d.1 d.2 := by
      unfold capacity
      change (array r.1 d.2).length = (array d.1 d.2).length at r4
      rw [r4]
    refine ⟨q1, q2, ?_, by rw [q5, hl1, Nat.succ_mul]; omega, ?_⟩
    · have := congrArg Prod.snd r5
      dsimp only at this
      rw [← inj.2] at this
      rw [q3, spl', r3, ← inj.1, this]
    · intro hc
      have hc1 : dk.len + hashLen ≤ capacity h dk := by
        rw [Nat.succ_mul] at hc
        omega
      have := cap1 hc1
      rw [q4 (by rw [capd, this, hl1]; rw [Nat.succ_mul] at hc; omega), capd, this]

end Toku.SliceCrypto
