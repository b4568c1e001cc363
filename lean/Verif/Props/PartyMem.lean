import Verif.Model.PartyMem
import Verif.Props.Party
import Verif.Props.MpcLeak
/-
Property C116: the hash a signing party signs is the one it was given.
-/
namespace Toku.Props
open Toku Toku.Spec Toku.Curve Toku.Mpc Toku.Slices

section
variable [Hashes]

/-! ### the calls by value -/

/-- The calls of a run with the hash each call of phase 2 found in the memory. -/
def calls (w : Shared Obj) : List Ev → List Call
  | [] => []
  | .start true fuel primes rnd hash :: es =>
    .bob2 fuel primes rnd (elems w.heap hash) :: calls (w.step (.start true fuel primes rnd hash)).1 es
  | .start false fuel primes rnd hash :: es =>
    .phase2 fuel primes rnd (elems w.heap hash) :: calls (w.step (.start false fuel primes rnd hash)).1 es
  | .call c :: es => c.1 :: calls (w.step (.call c)).1 es
  | .store arr pos b :: es => calls (w.step (.store arr pos b)).1 es

/-- No store of the run changes the bytes of the slice the party holds at that time. -/
def Untouched (w : Shared Obj) : List Ev → Prop
  | [] => True
  | e :: es => (∀ arr pos b, e = .store arr pos b → elems (store w.heap arr pos b) w.loc = elems w.heap w.loc) ∧
    Untouched (w.step e).1 es

private theorem phase2_hash (o : Obj) (fuel : ℕ) (primes : Option (ℕ × ℕ)) (rnd : Option ℕ) (hash : Bytes) :
    (o.phase2 fuel primes rnd hash).1.hash = (if o.prv = none then o.hash else hash) := by
  unfold Obj.phase2
  cases hp : o.prv with
  | none => rfl
  | some prv =>
    rw [if_neg (by simp)]
    dsimp only
    repeat' split
    all_goals rfl

private theorem other_hash (o : Obj) (c : Call) (hc : (match c with | .phase2 .. => false | .bob2 .. => false | _ => true) = true) :
    (o.step c).1.hash = o.hash := by
  cases c
  case phase2 => cases hc
  case bob2 => cases hc
  case close =>
    unfold Obj.step Obj.close
    dsimp only
    repeat' split
    all_goals rfl
  all_goals rfl

omit [Hashes] in
private theorem with_hash (o : Obj) (h : Bytes) (e : o.hash = h) : { o with hash := h } = o := by subst e; rfl

private theorem view_start (w : Shared Obj) (bob : Bool) (fuel : ℕ) (primes : Option (ℕ × ℕ)) (rnd : Option ℕ) (hash : Slice) :
    (w.step (.start bob fuel primes rnd hash)).1.view =
      (w.view.step (if bob then .bob2 fuel primes rnd (elems w.heap hash) else .phase2 fuel primes rnd (elems w.heap hash))).1 := by
  have key : (w.view.step (if bob then .bob2 fuel primes rnd (elems w.heap hash) else .phase2 fuel primes rnd (elems w.heap hash))).1.hash =
      elems w.heap (if w.obj.prv = none then w.loc else hash) := by
    have : (w.view.step (if bob then .bob2 fuel primes rnd (elems w.heap hash) else .phase2 fuel primes rnd (elems w.heap hash))).1 =
        (w.view.phase2 fuel primes rnd (elems w.heap hash)).1 := by cases bob <;> rfl
    rw [this, phase2_hash]
    change (if w.obj.prv = none then elems w.heap w.loc else elems w.heap hash) = _
    split_ifs <;> rfl
  unfold Shared.view at key ⊢
  exact with_hash _ _ key

private theorem view_call (w : Shared Obj) (c) : (w.step (.call c)).1.view = (w.view.step c.1).1 := by
  have key := other_hash w.view c.1 c.2
  unfold Shared.view at key ⊢
  exact with_hash _ _ key

/-- **C116 (partial).** Full statement: whatever the caller stores in its memory between the calls, a party signs the hashes it was
given. Proved: if none of the stores changes the bytes of the hash the party holds, the results are those of the calls by value. -/
theorem C116_partial (es : List Ev) : ∀ w : Shared Obj, Untouched w es → w.results es = w.view.results (calls w es) := by
  induction es with
  | nil => intro w _; rfl
  | cons e es ih =>
    intro w h
    have hr := ih _ h.2
    cases e with
    | start bob fuel primes rnd hash =>
      rw [view_start] at hr
      unfold Shared.results
      rw [hr]
      cases bob <;> rfl
    | call c =>
      rw [view_call] at hr
      unfold Shared.results
      rw [hr]
      rfl
    | store arr pos b =>
      have hv : (w.step (.store arr pos b)).1.view = w.view := by
        change ({ w.obj with hash := elems (store w.heap arr pos b) w.loc } : Obj) = { w.obj with hash := elems w.heap w.loc }
        rw [h.1 arr pos b rfl]
      rw [hv] at hr
      unfold Shared.results
      rw [hr]
      rfl

/-- the stores of the caller, one after another -/
def stores (h : Heap UInt8) (l : List (ℕ × ℕ × UInt8)) : Heap UInt8 := l.foldl (fun h s => store h s.1 s.2.1 s.2.2) h

private theorem run_stores (l : List (ℕ × ℕ × UInt8)) : ∀ w : Shared Obj,
    w.run (l.map fun s => .store s.1 s.2.1 s.2.2) = ⟨stores w.heap l, w.obj, w.loc⟩ := by
  induction l with
  | nil => intro w; rfl
  | cons s l ih =>
    intro w
    change ((w.step (.store s.1 s.2.1 s.2.2)).1).run (l.map fun s => .store s.1 s.2.1 s.2.2) = _
    rw [ih]
    rfl

/-- phase 4 as an event -/
def phase4Ev (c : ℤ) (pub : Paillier.PubKey) (R : Pt) : Ev := .call ⟨.phase4 (some c) pub (scalarOf R), rfl⟩

/-- **C116 (negation).** A caller that uses the memory of the hash for the next hash after phase 2 makes the party sign both with
one nonce: phase 4 before and after the stores gives two ciphertexts, from which a counterpart that follows the protocol computes
the private key d1 (the factor on the left is not 0 modulo N and everything but d1 is known to it). -/
theorem C116_negation (d1 d2 : ℕ) (h1 : d1 < 2 ^ 256) (h2 : d2 < 2 ^ 256) (hd2 : ¬ N ∣ d2) (secret fuel : ℕ)
    (heap : Heap UInt8) (s s0 : Slice) (l : List (ℕ × ℕ × UInt8))
    (hz : (hashNum (elems heap s) : ZMod N) ≠ hashNum (elems (stores heap l) s)) (w1 w2 : Draw) (g1 : w1.Good) (g2 : w2.Good)
    (k1 : ℕ) (hk1 : Ecdsa.nonce N fuel d1 (elems heap s) = some k1) (R : Pt) (hR : R ≠ 0) (hx : (((coords R).1 : ℤ) : ZMod N) ≠ 0)
    (c : ℤ) (hc : encryptKey (Paillier.generateKeyPair w2.p w2.q).1 w2.rnd d2 = .ok c) :
    let first := (⟨heap, newObj (prvOf d1) secret, s0⟩ : Shared Obj).run [.start false fuel (some (w1.p, w1.q)) (some w1.rnd) s]
    let second := first.run (l.map fun s => .store s.1 s.2.1 s.2.2)
    let e := phase4Ev c (Paillier.generateKeyPair w2.p w2.q).1 R
    ∃ ct ct' m m', (first.step e).2 = some (.ok (.cipher (some ct))) ∧ (second.step e).2 = some (.ok (.cipher (some ct'))) ∧
      Paillier.decrypt (Paillier.generateKeyPair w2.p w2.q).2 (some ct) = .ok m ∧
      Paillier.decrypt (Paillier.generateKeyPair w2.p w2.q).2 (some ct') = .ok m' ∧
      ((d2 * (coords R).1 * (m - m') : ℤ) : ZMod N) ≠ 0 ∧
      ((d2 * (coords R).1 * (m - m') * d1 : ℤ) : ZMod N) =
        ((hashNum (elems heap s) * m' - hashNum (elems (stores heap l) s) * m : ℤ) : ZMod N) := by
  intro first second e
  obtain ⟨kinv1, kr, ke, ef⟩ := phase2_state d1 h1 secret fuel (elems heap s) w1 g1 k1 hk1
  obtain ⟨ct, ct', m, m', hct, hct', hrest⟩ := phase4_two d1 d2 h1 h2 hd2 secret (elems heap s) (elems (stores heap l) s) hz w1 w2 g2
    k1 kinv1 kr ke R hR hx c hc
  have v1 : first = ⟨heap, ⟨some (prvOf d1), some k1, some kinv1, elems heap s, some (Paillier.generateKeyPair w1.p w1.q).2, secret⟩, s⟩ := by
    change (⟨heap, ((({ newObj (prvOf d1) secret with hash := elems heap s0 } : Obj)).step
      (.phase2 fuel (some (w1.p, w1.q)) (some w1.rnd) (elems heap s))).1, s⟩ : Shared Obj) = _
    rw [← ef]
    rfl
  have v2 : second = ⟨stores heap l, ⟨some (prvOf d1), some k1, some kinv1, elems heap s, some (Paillier.generateKeyPair w1.p w1.q).2, secret⟩, s⟩ := by
    change first.run _ = _
    rw [run_stores, v1]
  refine ⟨ct, ct', m, m', ?_, ?_, hrest⟩
  · rw [v1]
    exact congrArg some hct
  · rw [v2]
    exact congrArg some hct'

/-! ### Schnorr -/

def scalls (w : Shared SObj) : List SEv → List SCall
  | [] => []
  | .start hash :: es => .phase2 (elems w.heap hash) :: scalls (w.sstep (.start hash)).1 es
  | .call c :: es => c.1 :: scalls (w.sstep (.call c)).1 es
  | .store arr pos b :: es => scalls (w.sstep (.store arr pos b)).1 es

def SUntouched (w : Shared SObj) : List SEv → Prop
  | [] => True
  | e :: es => (∀ arr pos b, e = .store arr pos b → elems (store w.heap arr pos b) w.loc = elems w.heap w.loc) ∧
    SUntouched (w.sstep e).1 es

private theorem sother_hash (o : SObj) (c : SCall) (hc : (match c with | .phase2 .. => false | _ => true) = true) :
    (o.step c).1.hash = o.hash := by
  cases c
  case phase2 => cases hc
  case phase4 pub R =>
    unfold SObj.step
    dsimp only
    repeat' split
    all_goals rfl
  all_goals rfl

omit [Hashes] in
private theorem swith_hash (o : SObj) (h : Bytes) (e : o.hash = h) : { o with hash := h } = o := by subst e; rfl

private theorem sview_start (w : Shared SObj) (hash : Slice) :
    (w.sstep (.start hash)).1.sview = (w.sview.step (.phase2 (elems w.heap hash))).1 := by
  obtain ⟨heap, ⟨prv, pub, h0, k0, r⟩, loc⟩ := w
  unfold Shared.sview
  refine swith_hash _ _ ?_
  unfold Shared.sstep Shared.sview SObj.step SObj.phase2
  dsimp only
  cases prv with
  | none => rfl
  | some prv =>
    dsimp only
    cases Schnorr.intToByte prv.d with
    | err e => rfl
    | panic => rfl
    | ok d =>
      dsimp only
      repeat' split
      all_goals rfl

private theorem sview_call (w : Shared SObj) (c) : (w.sstep (.call c)).1.sview = (w.sview.step c.1).1 := by
  have key := sother_hash w.sview c.1 c.2
  unfold Shared.sview at key ⊢
  exact swith_hash _ _ key

/-- **C116 (partial)**, Schnorr: likewise. -/
theorem C116_schnorr_partial (es : List SEv) : ∀ w : Shared SObj, SUntouched w es → w.sresults es = w.sview.results (scalls w es) := by
  induction es with
  | nil => intro w _; rfl
  | cons e es ih =>
    intro w h
    have hr := ih _ h.2
    cases e with
    | start hash =>
      rw [sview_start] at hr
      unfold Shared.sresults
      rw [hr]
      rfl
    | call c =>
      rw [sview_call] at hr
      unfold Shared.sresults
      rw [hr]
      rfl
    | store arr pos b =>
      have hv : (w.sstep (.store arr pos b)).1.sview = w.sview := by
        change ({ w.obj with hash := elems (store w.heap arr pos b) w.loc } : SObj) = { w.obj with hash := elems w.heap w.loc }
        rw [h.1 arr pos b rfl]
      rw [hv] at hr
      unfold Shared.sresults
      rw [hr]
      rfl

private theorem srun_stores (l : List (ℕ × ℕ × UInt8)) : ∀ w : Shared SObj,
    w.srun (l.map fun s => .store s.1 s.2.1 s.2.2) = ⟨stores w.heap l, w.obj, w.loc⟩ := by
  induction l with
  | nil => intro w; rfl
  | cons s l ih =>
    intro w
    change ((w.sstep (.store s.1 s.2.1 s.2.2)).1).srun (l.map fun s => .store s.1 s.2.1 s.2.2) = _
    rw [ih]
    rfl

private theorem sphase2_state {d k : ℕ} {hash : Bytes} (h : (newSchnorrParty (prvOf d)).phase2 hash = .ok (prepared d k hash, scalarOf (k • G)))
    (o : SObj) (ho : o.prv = some (prvOf d)) :
    (o.phase2 hash).1 = ⟨some (prvOf d), o.pub, hash, some k, some (scalarOf (k • G))⟩ ∧
    ∃ db, Schnorr.intToByte (prvOf d).d = .ok db := by
  unfold SchnorrParty.phase2 at h
  obtain ⟨db, hdb, h⟩ := Res.bind_eq_ok.mp h
  obtain ⟨k0, hk0, h⟩ := Res.bind_eq_ok.mp h
  obtain ⟨⟨rx, ry⟩, hr, h⟩ := Res.bind_eq_ok.mp h
  have hdb' : Schnorr.intToByte (prvOf d).d = .ok db := hdb
  simp only [Res.pure_eq, Res.ok.injEq, Prod.mk.injEq, prepared, newSchnorrParty, SchnorrParty.mk.injEq, true_and, Option.some.injEq] at h
  obtain ⟨⟨rfl, hs⟩, _⟩ := h
  obtain ⟨prv, pub, h0, kk, r⟩ := o
  dsimp only at ho
  subst ho
  refine ⟨?_, db, hdb'⟩
  unfold SObj.phase2
  dsimp only
  rw [hdb']
  dsimp only
  rw [hk0]
  dsimp only
  rw [hr]
  dsimp only
  rw [hs]

/-- **C116 (negation)**, Schnorr: phase 4 before and after the stores gives two numbers whose difference is the private key times
the difference of the known challenges (for a shared point whose y coordinate is a residue). -/
theorem C116_schnorr_negation (d k : ℕ) (hk : 1 ≤ k ∧ k < N) (heap : Heap UInt8) (s s0 : Slice) (l : List (ℕ × ℕ × UInt8))
    (h2 : (newSchnorrParty (prvOf d)).phase2 (elems heap s) = .ok (prepared d k (elems heap s), scalarOf (k • G)))
    (q : Pt) (hq : q ≠ 0) (R : Scalar) (hR : Residue R.y) :
    let first := (⟨heap, newSObj (prvOf d), s0⟩ : Shared SObj).srun [.start s]
    let p4 : SEv := .call ⟨.phase4 (keyOf q) R, rfl⟩
    let second := (first.sstep p4).1.srun (l.map fun s => .store s.1 s.2.1 s.2.2)
    ∃ e e' b b', Challenge q (elems heap s) (coords (k • G)).1 e ∧ Challenge q (elems (stores heap l) s) (coords (k • G)).1 e' ∧
      (first.sstep p4).2 = some (.ok (.sig b)) ∧ (second.sstep p4).2 = some (.ok (.sig b')) ∧
      (beNat b : ZMod N) - beNat b' = ((e : ZMod N) - e') * d := by
  intro first p4 second
  obtain ⟨e, sb, c, h, p⟩ := schnorrPhase4 (d := d) hk (elems heap s) hq R
  obtain ⟨e', sb', c', h', p'⟩ := schnorrPhase4 (d := d) hk (elems (stores heap l) s) hq R
  have g : Schnorr.getK R.y k = k := by unfold Schnorr.getK; rw [if_pos ((Schnorr.jacobi_iff _).mpr hR)]
  rw [g] at h h' p p'
  rw [Int.toNat_natCast] at p p'
  obtain ⟨st, db, hdb⟩ := sphase2_state h2 ({ newSObj (prvOf d) with hash := elems heap s0 } : SObj) rfl
  have v1 : first = ⟨heap, ⟨some (prvOf d), (prvOf d).pub, elems heap s, some k, some (scalarOf (k • G))⟩, s⟩ := by
    change ((⟨heap, newSObj (prvOf d), s0⟩ : Shared SObj).sstep (.start s)).1 = _
    unfold Shared.sstep
    dsimp only
    have hprv : (newSObj (prvOf d)).prv = some (prvOf d) := rfl
    rw [hprv]
    dsimp only
    rw [hdb]
    dsimp only
    have : (((⟨heap, newSObj (prvOf d), s0⟩ : Shared SObj).sview.step (.phase2 (elems heap s))).1 : SObj) =
        ⟨some (prvOf d), (prvOf d).pub, elems heap s, some k, some (scalarOf (k • G))⟩ := st
    rw [this]
  have step4 : ∀ (hp : Heap UInt8) (h0 : Bytes) (sg : Bytes),
      (prepared d k (elems hp s)).phase4 (keyOf q) R = .ok (prepared d k (elems hp s), sg) →
      (⟨hp, ⟨some (prvOf d), (prvOf d).pub, h0, some k, some (scalarOf (k • G))⟩, s⟩ : Shared SObj).sstep p4 =
        (⟨hp, ⟨some (prvOf d), (prvOf d).pub, elems hp s, some k, some (scalarOf (k • G))⟩, s⟩, some (.ok (.sig sg))) := by
    intro hp h0 sg hsg
    have : (⟨some (prvOf d), (prvOf d).pub, elems hp s, some k, some (scalarOf (k • G))⟩ : SObj).step (.phase4 (keyOf q) R) =
        (⟨some (prvOf d), (prvOf d).pub, elems hp s, some k, some (scalarOf (k • G))⟩, .ok (.sig sg)) := by
      unfold SObj.step
      dsimp only
      unfold prepared at hsg
      rw [hsg]
    change ((⟨hp, ((⟨some (prvOf d), (prvOf d).pub, elems hp s, some k, some (scalarOf (k • G))⟩ : SObj).step (.phase4 (keyOf q) R)).1, s⟩ : Shared SObj),
      some ((⟨some (prvOf d), (prvOf d).pub, elems hp s, some k, some (scalarOf (k • G))⟩ : SObj).step (.phase4 (keyOf q) R)).2) = _
    rw [this]
  have e1 := step4 heap (elems heap s) sb p
  rw [← v1] at e1
  have v2 : second = ⟨stores heap l, ⟨some (prvOf d), (prvOf d).pub, elems heap s, some k, some (scalarOf (k • G))⟩, s⟩ := by
    change (first.sstep p4).1.srun _ = _
    rw [srun_stores, e1]
    dsimp only
    rw [v1]
  have e2 := step4 (stores heap l) (elems heap s) sb' p'
  rw [← v2] at e2
  refine ⟨e, e', sb, sb', c, c', by rw [e1], by rw [e2], ?_⟩
  have b : ((beNat sb : ℕ) : ZMod N) = k + e * d := by
    rw [← Int.cast_natCast, h.2, Ecdsa.mod_N]; push_cast; rfl
  have b' : ((beNat sb' : ℕ) : ZMod N) = k + e' * d := by
    rw [← Int.cast_natCast, h'.2, Ecdsa.mod_N]; push_cast; rfl
  rw [b, b']
  ring

end

/-! ### Concrete cases -/

/-- The memory of the hash 0x07 in an array of two bytes; the caller stores 0x08 in its place. -/
example : elems ([[7, 9]] : Heap UInt8) ⟨0, 0, 1⟩ = [7] ∧ elems (stores [[7, 9]] [(0, 0, 8)]) ⟨0, 0, 1⟩ = [8] := by decide

/-- A store in the other byte leaves the hash as it is. -/
example [Hashes] (c : Ev) (hc : ∀ a p b, c ≠ .store a p b) (o : Obj) :
    Untouched ⟨[[7, 9]], o, ⟨0, 0, 1⟩⟩ [.store 0 1 5, c] := by
  refine ⟨fun a p b e => ?_, fun a p b e => (hc a p b e).elim, trivial⟩
  cases e
  rfl

/-- The hypotheses of the attack can be met: the hash 0x07 and then 0x08 in the same memory, shared point G. -/
example : ∃ (w : Draw) (c ct ct' m m' : ℤ),
    letI := Sha.realHashes
    let first := (⟨[[7, 9]], newObj (prvOf 12345) 0, ⟨0, 0, 0⟩⟩ : Shared Obj).run [.start false 4 (some (w.p, w.q)) (some w.rnd) ⟨0, 0, 1⟩]
    let second := first.run [.store 0 0 8]
    let e := phase4Ev c (Paillier.generateKeyPair w.p w.q).1 G
    (first.step e).2 = some (.ok (.cipher (some ct))) ∧ (second.step e).2 = some (.ok (.cipher (some ct'))) ∧
    ((3 * (coords G).1 * (m - m') : ℤ) : ZMod N) ≠ 0 ∧
    ((3 * (coords G).1 * (m - m') * 12345 : ℤ) : ZMod N) = ((7 * m' - 8 * m : ℤ) : ZMod N) := by
  let _ := Sha.realHashes
  obtain ⟨w, g⟩ := exists_draw
  obtain ⟨k, hk⟩ : ∃ k, Ecdsa.nonce N 4 12345 [7] = some k :=
    Option.isSome_iff_exists.mp (by decide +kernel)
  obtain ⟨c, hc, _⟩ := encryptKey_ok (d := 3) g.1 g.2.2
    (by have := g.2.1; have b : (3 : ℕ) < 2 ^ 1025 := by decide +kernel
        omega)
  have e1 : elems ([[7, 9]] : Heap UInt8) ⟨0, 0, 1⟩ = [7] := by decide
  have e2 : elems (stores [[7, 9]] [(0, 0, 8)]) ⟨0, 0, 1⟩ = [8] := by decide
  have h7 : hashNum [7] = 7 := by decide +kernel
  have h8 : hashNum [8] = 8 := by decide +kernel
  have hz : (hashNum (elems ([[7, 9]] : Heap UInt8) ⟨0, 0, 1⟩) : ZMod N) ≠ hashNum (elems (stores [[7, 9]] [(0, 0, 8)]) ⟨0, 0, 1⟩) := by
    rw [e1, e2, Ne, ZMod.natCast_eq_natCast_iff]
    decide +kernel
  have hx : (((coords G).1 : ℤ) : ZMod N) ≠ 0 := by
    have : (coords G).1 = Gx := by rw [coords_G]
    rw [this, Ne, ZMod.intCast_zmod_eq_zero_iff_dvd]
    decide +kernel
  obtain ⟨ct, ct', m, m', h3, h4, _, _, h5, h6⟩ := C116_negation 12345 3 (by norm_num) (by norm_num) (by decide +kernel) 0 4
    [[7, 9]] ⟨0, 0, 1⟩ ⟨0, 0, 0⟩ [(0, 0, 8)] hz w w g g k (by rw [e1]; exact hk) G G_ne hx c hc
  rw [e1, e2, h7, h8] at h6
  exact ⟨w, c, ct, ct', m, m', h3, h4, h5, h6⟩

/-- and those of the Schnorr case: private key 1, hash 0x07, and a y coordinate that is a residue -/
example : Residue 4 ∧ (letI := Sha.realHashes
    ∃ k, (1 ≤ k ∧ k < N) ∧ (newSchnorrParty (prvOf 1)).phase2 [7] = .ok (prepared 1 k [7], scalarOf (k • G))) := by
  refine ⟨(Schnorr.jacobi_iff 4).mp (by decide +kernel), ?_⟩
  let _ := Sha.realHashes
  obtain ⟨db, hdb, h | ⟨k, hk, _, h⟩⟩ := schnorrPhase2 (d := 1) (by norm_num) [7]
  · exfalso
    have e1 : Schnorr.intToByte ((prvOf 1).d : ℤ) = .ok (List.replicate 31 0 ++ [1]) := by
      change Schnorr.intToByte (1 : ℤ) = _
      decide +kernel
    have e2 : (match Schnorr.getK0 [7] (List.replicate 31 0 ++ [1]) with | .ok _ => true | _ => false) = true := by decide +kernel
    have h1 := h.1
    unfold SchnorrParty.phase2 newSchnorrParty at h1
    dsimp only at h1
    rw [e1, Res.ok_bind] at h1
    cases hk : Schnorr.getK0 [7] (List.replicate 31 0 ++ [1]) with
    | ok k =>
      rw [hk, Res.ok_bind, baseMult_coords, Res.ok_bind] at h1
      cases h1
    | err e => rw [hk] at e2; cases e2
    | panic => rw [hk] at e2; cases e2
  · exact ⟨k, hk, h⟩

end Toku.Props
