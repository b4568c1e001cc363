import Verif.Proof.ProtocolSafe
/-
Lemmas about frames and the read loop of xprotocol.
-/
namespace Toku.Protocol
open Toku.Buffer Toku.Spec

theorem readFull_append {n : Nat} {a : Bytes} (h : a.length = n) (b : Bytes) : readFull n (a ++ b) = some (a, b) := by
  unfold readFull
  subst h
  rw [if_pos (by simp)]
  simp

theorem readFull_some {n : Nat} {w a b : Bytes} (h : readFull n w = some (a, b)) : w = a ++ b ∧ a.length = n := by
  unfold readFull at h
  split at h
  · cases h
    exact ⟨(List.take_append_drop n w).symm, by rw [List.length_take]; omega⟩
  · cases h

theorem u32of_le32 (v : UInt32) : u32of (le32 v) = v := join32_le32 v

theorem le32_u32of {b : Bytes} (h : b.length = 4) : le32 (u32of b) = b := by
  match b, h with
  | [a, b, c, d], _ => exact le32_join a b c d

/-- The parts of a complete frame, as they lie on the wire. -/
structure Parts where
  magic : Bytes
  command : Bytes
  check : Bytes
  data : Bytes

def Parts.tuple (p : Parts) : Bytes × Bytes × Bytes × Bytes := (p.magic, p.command, p.check, p.data)

def Parts.bytes (p : Parts) : Bytes :=
  p.magic ++ (p.command ++ (le32 (UInt32.ofNat p.data.length) ++ (p.check ++ p.data)))

def Parts.Ok (p : Parts) : Prop := p.magic.length = 4 ∧ p.command.length = 12 ∧ p.check.length = 4 ∧ p.data.length < 2^32

theorem readParts_ok (p : Parts) (h : p.Ok) (rest : Bytes) : readParts (p.bytes ++ rest) = some (p.tuple, rest) := by
  obtain ⟨h1, h2, h3, h4⟩ := h
  unfold readParts Parts.bytes
  simp only [List.append_assoc]
  have hs : (UInt32.ofNat p.data.length).toNat = p.data.length := by rw [UInt32.toNat_ofNat']; omega
  simp only [readFull_append h1, readFull_append h2, readFull_append (le32_length _), readFull_append h3, Option.bind_eq_bind,
    Option.bind_some, u32of_le32, hs, readFull_append (rfl : p.data.length = p.data.length)]
  rfl

theorem readParts_some {w : Bytes} {q : Bytes × Bytes × Bytes × Bytes} {rest : Bytes}
    (h : readParts w = some (q, rest)) : ∃ p : Parts, p.Ok ∧ w = p.bytes ++ rest ∧ q = p.tuple := by
  simp only [readParts, bind, Option.bind_eq_some_iff, pure, Option.some.injEq, Prod.mk.injEq] at h
  obtain ⟨⟨a, w1⟩, h1, ⟨b, w2⟩, h2, ⟨c, w3⟩, h3, ⟨d, w4⟩, h4, ⟨e, w5⟩, h5, rfl, rfl⟩ := h
  obtain ⟨rfl, l1⟩ := readFull_some h1
  obtain ⟨rfl, l2⟩ := readFull_some h2
  obtain ⟨rfl, l3⟩ := readFull_some h3
  obtain ⟨rfl, l4⟩ := readFull_some h4
  obtain ⟨rfl, l5⟩ := readFull_some h5
  refine ⟨⟨a, b, d, e⟩, ⟨l1, l2, l4, ?_⟩, ?_, rfl⟩
  · rw [l5]
    exact (u32of c).toNat_lt
  · have : le32 (UInt32.ofNat e.length) = c := by
      rw [l5, UInt32.ofNat_toNat, le32_u32of l3]
    simp [Parts.bytes, this]

theorem readLoop_eq [Hashes] (own w : Bytes) : readLoop own w =
    match readMessage own w with
    | (.ok m, rest) => .receive m :: readLoop own rest
    | (.err _, _) => [.disconnect]
    | (.panic, _) => [.crash] := by
  rw [readLoop.eq_def]
  unfold readMessage
  split
  · rename_i h
    rw [h]
  · rename_i p rest h
    rw [h]
    dsimp only
    split <;> rename_i h2 <;> rw [h2]

theorem readMessage_ok [Hashes] (own : Bytes) (p : Parts) (h : p.Ok) (rest : Bytes) :
    readMessage own (p.bytes ++ rest) = (openFrame own p.tuple, rest) := by
  unfold readMessage
  rw [readParts_ok p h rest]

/-! ### Commands -/

theorem dropWhile_zeros (k : Nat) (c : Bytes) (h : c.head? ≠ some 0) :
    (List.replicate k (0 : UInt8) ++ c).dropWhile (· = 0) = c := by
  induction k with
  | zero =>
    cases c with
    | nil => rfl
    | cons a c =>
      have : a ≠ 0 := by simpa using h
      simp [this]
  | succ k ih => rw [List.replicate_succ, List.cons_append, List.dropWhile_cons_of_pos (by simp), ih]

theorem trimZeros_names {f c : Bytes} (h : Names f c) : trimZeros f = c := by
  obtain ⟨k, rfl, h⟩ := h
  unfold trimZeros
  rw [List.reverse_append, List.reverse_replicate, dropWhile_zeros, List.reverse_reverse]
  rwa [List.head?_reverse]

theorem names_trimZeros (f : Bytes) : Names f (trimZeros f) := by
  unfold trimZeros
  refine ⟨(f.reverse.takeWhile (· = 0)).length, ?_, ?_⟩
  · have h : f.reverse.takeWhile (· = 0) = List.replicate (f.reverse.takeWhile (· = 0)).length 0 := by
      rw [List.eq_replicate_iff]
      refine ⟨rfl, fun b hb => ?_⟩
      have := List.all_eq_true.mp (List.all_takeWhile (p := fun x : UInt8 => decide (x = 0)) (l := f.reverse)) b hb
      simpa using this
    have := congrArg List.reverse (List.takeWhile_append_dropWhile (p := (· = 0)) (l := f.reverse))
    rw [List.reverse_append, List.reverse_reverse] at this
    conv_lhs => rw [← this]
    rw [h]
    simp
  · rw [List.getLast?_reverse]
    intro hh
    have := List.head?_dropWhile_not (fun x : UInt8 => decide (x = 0)) f.reverse
    rw [hh] at this
    simp at this

theorem names_unique {f c c' : Bytes} (h : Names f c) (h' : Names f c') : c = c' := by
  rw [← trimZeros_names h, ← trimZeros_names h']

theorem names_field {c : Bytes} (hl : c.length ≤ 12) (h : c.getLast? ≠ some 0) : Names (commandField c) c := by
  refine ⟨12 - c.length, ?_, h⟩
  unfold commandField
  rw [List.take_of_length_le hl]

theorem commandField_length (c : Bytes) : (commandField c).length = 12 := by
  unfold commandField
  simp
  omega

theorem checksum_length [Hashes] (d : Bytes) : (checksum d).length = 4 := by
  unfold checksum
  rw [List.length_take, sha256d_length]
  rfl

/-- The parts of a written frame. -/
def partsOf [Hashes] (magic : Bytes) (m : Msg) : Parts :=
  ⟨magic, commandField (command m), checksum (encode m), encode m⟩

theorem frame_eq [Hashes] (magic : Bytes) (m : Msg) : frame magic m = (partsOf magic m).bytes := by
  simp [frame, partsOf, Parts.bytes]

theorem partsOf_ok [Hashes] {magic : Bytes} (hm : magic.length = 4) {m : Msg} (h : (encode m).length < 2^32) :
    (partsOf magic m).Ok := ⟨hm, commandField_length _, checksum_length _, h⟩

theorem isFrame_iff [Hashes] (f magic command data : Bytes) : IsFrame f magic command data ↔
    (Parts.Ok ⟨magic, command, checksum data, data⟩ ∧ f = Parts.bytes ⟨magic, command, checksum data, data⟩) := by
  unfold IsFrame Parts.Ok Parts.bytes
  have key : data.length < 2^32 → le 4 data.length = le32 (UInt32.ofNat data.length) := by
    intro h
    rw [← Wire.le4, UInt32.toNat_ofNat', Nat.mod_eq_of_lt h]
  constructor
  · rintro ⟨h1, h2, h3, rfl⟩
    refine ⟨⟨h1, h2, checksum_length _, h3⟩, ?_⟩
    rw [key h3]
    simp [checksum, sha256d]
  · rintro ⟨⟨h1, h2, _, h3⟩, rfl⟩
    refine ⟨h1, h2, h3, ?_⟩
    rw [key h3]
    simp [checksum, sha256d]

/-- The command of a decoded message is that of the message it was decoded into. -/
theorem decode_command {m m' : Msg} {d : Bytes} (h : decode m d = .ok m') : command m' = command m := by
  cases m <;> simp only [decode, Res.bind_eq_ok, Res.pure_eq, Res.ok.injEq] at h
  case getheaders v l s =>
    unfold decodeGetHeaders at h
    simp only [Res.bind_eq_ok, Res.pure_eq, Res.ok.injEq] at h
    obtain ⟨_, _, _, _, _, _, rfl⟩ := h
    rfl
  all_goals (obtain ⟨_, _, rfl⟩ := h; rfl)

theorem makeEmpty_command (c : Bytes) : command (makeEmptyMessage c) = c := by
  unfold makeEmptyMessage
  repeat' split
  all_goals first
    | (rename_i h; exact h.symm)
    | rfl

end Toku.Protocol
