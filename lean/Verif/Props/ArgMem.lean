import Verif.Proof.ArgMem
import Verif.Proof.Bech32Text
import Verif.Proof.HDKey
import Verif.Model.Sha
/-
Property C118: functions that append to a slice of their caller.
-/
namespace Toku.Props
open Toku Toku.Spec Toku.Slices Toku.SliceBuf Toku.ArgMem

/-- The memory `h'` differs from `h` (in the arrays that `h` has) at most in the bytes behind the slice `s`: these are `xs` if they
fit in the array. -/
def WroteBehind (h h' : Heap UInt8) (s : Slice) (xs : Bytes) : Prop :=
  ∀ a p, a < h.length → (h'.getD a [])[p]? =
    if a = s.arr ∧ s.off + s.len ≤ p ∧ p < s.off + s.len + xs.length ∧ s.len + xs.length ≤ capacity h s then xs[p - (s.off + s.len)]?
    else (h.getD a [])[p]?

/-! ### Bech32Encode -/

/-- **C118 (partial).** Full statement: Bech32Encode, GetK0, GetE and Sum give what the bytes of their arguments give, and leave the
memory of their caller as it is. Proved for Bech32Encode: the text is that of the bytes, for every layout of the memory; the six
values behind the data become the checksum if the array has them, and nothing else changes. -/
theorem C118_bech32_partial (extra : Bytes) (h : Heap UInt8) (hrp : Bytes) (data : Slice) (ok : Ok h data) :
    (ArgMem.bech32Encode extra h hrp data).1 = Bech32.encode hrp (elems h data) ∧
    WroteBehind h (ArgMem.bech32Encode extra h hrp data).2 data (Bech32.checksum hrp (elems h data)) := by
  refine ⟨?_, fun a p ha => append_get ok _ a p ha⟩
  unfold ArgMem.bech32Encode Bech32.encode
  dsimp only
  rw [(append_read ok _).1]
  rfl

/-- **C118 (negation)**, Bech32Encode: values that the caller has behind the data, in the same array, are lost: the first six become
the checksum. -/
theorem C118_bech32_negation (extra : Bytes) (h : Heap UInt8) (hrp : Bytes) (data : Slice)
    (ok : Ok h ⟨data.arr, data.off, data.len + 6⟩) :
    elems (ArgMem.bech32Encode extra h hrp data).2 ⟨data.arr, data.off + data.len, 6⟩ = Bech32.checksum hrp (elems h data) := by
  have h2 : data.off + (data.len + 6) ≤ (array h data).length := ok.2
  have hl := Bech32.checksum_length hrp (elems h data)
  have := append_behind (extra := extra) (h := h) (s := data) ⟨ok.1, by omega⟩ (Bech32.checksum hrp (elems h data))
    (by unfold capacity; omega) 6 (by omega)
  rw [List.take_of_length_le (by omega)] at this
  exact this

/-! ### ripemd160 Sum -/

/-- **C118 (partial)**, Sum: the result has the bytes given and then the digest; the bytes behind the slice given become the digest if
they fit. -/
theorem C118_sum_partial (extra : Bytes) (h : Heap UInt8) (d : Ripemd.Digest) (dst : Slice) (ok : Ok h dst) (digest : Bytes)
    (hd : Ripemd.sum d = .ok digest) :
    ∃ r, (ArgMem.sum extra h d dst).1 = .ok r ∧ elems (ArgMem.sum extra h d dst).2 r = elems h dst ++ digest ∧
      WroteBehind h (ArgMem.sum extra h d dst).2 dst digest := by
  unfold ArgMem.sum
  rw [hd]
  exact ⟨_, rfl, (append_read ok _).1, fun a p ha => append_get ok _ a p ha⟩

/-! ### GetK0 and GetE -/

section
variable [Hashes]

/-- **C118 (partial)**, GetK0: the number is that of the bytes, for every layout; the bytes behind `d` become those of `m` if they fit. -/
theorem C118_k0_partial (extra : Bytes) (h : Heap UInt8) (m d : Slice) (ok : Ok h d) :
    (ArgMem.getK0 extra h m d).1 = Schnorr.getK0 (elems h m) (elems h d) ∧
    WroteBehind h (ArgMem.getK0 extra h m d).2 d (elems h m) := by
  refine ⟨?_, fun a p ha => append_get ok _ a p ha⟩
  unfold ArgMem.getK0 Schnorr.getK0
  dsimp only
  rw [(append_read ok _).1]

/-- **C118 (partial)**, GetE: the number is that of the bytes if the message does not reach behind `rX` in the array of `rX`, and
then every slice that does not keeps its bytes. -/
theorem C118_e_partial (extra extra' : Bytes) (h : Heap UInt8) (m : Slice) (px py : ℤ) (rX : Slice) (ok : Ok h rX) (hm : Kept h rX m) :
    (ArgMem.getE extra extra' h m px py rX).1 = Schnorr.getE (elems h m) px py (elems h rX) ∧
    ∀ t, Kept h rX t → elems (ArgMem.getE extra extra' h m px py rX).2 t = elems h t := by
  unfold ArgMem.getE Schnorr.getE
  cases hs : Keys.secMarshal px py with
  | err e => exact ⟨rfl, fun t _ => rfl⟩
  | panic => exact ⟨rfl, fun t _ => rfl⟩
  | ok sec =>
    obtain ⟨r1, ok1⟩ := append_read (extra := extra) ok sec
    have k1 := append_kept (e := extra) ok hm sec
    have r2 := (append_read (extra := extra') ok1 (elems (append extra h rX sec).1 m)).1
    dsimp only
    refine ⟨?_, fun t ht => ?_⟩
    · rw [r2, r1, k1.1]
      rfl
    · have kt := append_kept (e := extra) ok ht sec
      rw [(append_kept (e := extra') ok1 kt.2 _).1, kt.1]

/-- **C118 (negation)**, GetE: a message right behind `rX` in the same array is overwritten by the public key before it is read, so
the challenge does not depend on the message: with two memories that differ in the message only it is the same. -/
theorem C118_e_negation (extra extra' : Bytes) (h : Heap UInt8) (q : Pt) (rX : Slice) (n : ℕ) (hn : n ≤ 33)
    (ok : Ok h ⟨rX.arr, rX.off, rX.len + 33⟩) :
    ∃ sec, Keys.secMarshal (coords q).1 (coords q).2 = .ok sec ∧ sec.length = 33 ∧
      (ArgMem.getE extra extra' h ⟨rX.arr, rX.off + rX.len, n⟩ (coords q).1 (coords q).2 rX).1 =
        .ok (natOfBE (Hashes.sha256 (elems h rX ++ sec ++ sec.take n)) % Curve.N) := by
  obtain ⟨sec, hs, hl, _⟩ := HDKey.compressed_ok q
  have h2 : rX.off + (rX.len + 33) ≤ (array h rX).length := ok.2
  have ok0 : Ok h rX := ⟨ok.1, by omega⟩
  refine ⟨sec, hs, hl, ?_⟩
  unfold ArgMem.getE
  have hs' : Keys.secMarshal (coords q).1 (coords q).2 = .ok sec := hs
  rw [hs']
  obtain ⟨r1, ok1⟩ := append_read (extra := extra) ok0 sec
  have hb := append_behind (extra := extra) ok0 sec (by unfold capacity; omega) n (by omega)
  dsimp only
  rw [(append_read (extra := extra') ok1 _).1, r1, hb]

end

/-! ### Concrete cases -/

/-- The values 0, 1 and behind them 9, 9, 9, 9, 9, 9, 7: encoding the first two as "a1..." leaves only the last. -/
example : elems (ArgMem.bech32Encode [] [[0, 1, 9, 9, 9, 9, 9, 9, 7]] [0x61] ⟨0, 0, 2⟩).2 ⟨0, 0, 9⟩ =
    [0, 1] ++ Bech32.checksum [0x61] [0, 1] ++ [7] ∧ Bech32.checksum [0x61] [0, 1] ≠ [9, 9, 9, 9, 9, 9] := by decide +kernel

/-- `rX` and a message of one byte in one array: two messages, one challenge; and a message that does not reach behind `rX`. -/
example : let _ := Sha.realHashes
    let P := coords G
    let mem (b : UInt8) : Heap UInt8 := [List.replicate 32 1 ++ b :: List.replicate 40 0]
    (ArgMem.getE [] [] (mem 1) ⟨0, 32, 1⟩ P.1 P.2 ⟨0, 0, 32⟩).1 = (ArgMem.getE [] [] (mem 2) ⟨0, 32, 1⟩ P.1 P.2 ⟨0, 0, 32⟩).1 ∧
    Kept (mem 1) ⟨0, 0, 32⟩ ⟨0, 31, 1⟩ := by
  intro _ P mem
  have ok : ∀ b, Ok (mem b) ⟨0, 0, 32 + 33⟩ := fun b => ⟨Nat.one_pos, by
    change 0 + 65 ≤ (List.replicate 32 (1 : UInt8) ++ b :: List.replicate 40 0).length
    simp⟩
  obtain ⟨s1, a1, _, e1⟩ := C118_e_negation [] [] (mem 1) G ⟨0, 0, 32⟩ 1 (by omega) (ok 1)
  obtain ⟨s2, a2, _, e2⟩ := C118_e_negation [] [] (mem 2) G ⟨0, 0, 32⟩ 1 (by omega) (ok 2)
  rw [a1] at a2
  cases a2
  refine ⟨?_, ⟨⟨Nat.one_pos, by decide⟩, .inr (by decide)⟩⟩
  exact e1.trans e2.symm

end Toku.Props
