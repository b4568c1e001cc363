import Verif.Spec.Bits
import Verif.Model.Hash
/-
BIP 39: mnemonics. The list of words is a parameter.
-/
namespace Toku.Spec

/-- The white space characters of Unicode, in UTF-8. -/
def whiteSpace : List Bytes :=
  [0x09, 0x0a, 0x0b, 0x0c, 0x0d, 0x20].map (fun c => [c]) ++ [[0xc2, 0x85], [0xc2, 0xa0], [0xe1, 0x9a, 0x80]] ++
  [0x80, 0x81, 0x82, 0x83, 0x84, 0x85, 0x86, 0x87, 0x88, 0x89, 0x8a, 0xa8, 0xa9, 0xaf].map (fun c => [0xe2, 0x80, c]) ++
  [[0xe2, 0x81, 0x9f], [0xe3, 0x80, 0x80]]

/-- A word: not empty, and no white space in it. -/
def Word (w : Bytes) : Prop := w ≠ [] ∧ ∀ sp ∈ whiteSpace, ¬ sp <:+: w

/-- Any amount of white space. -/
inductive Blank : Bytes → Prop
  | nil : Blank []
  | cons {sp s : Bytes} : sp ∈ whiteSpace → Blank s → Blank (sp ++ s)

/-- The text is these words with white space around and between them. -/
inductive Separated : Bytes → List Bytes → Prop
  | nil {b : Bytes} : Blank b → Separated b []
  | last {b w e : Bytes} : Blank b → Word w → Blank e → Separated (b ++ w ++ e) [w]
  | cons {b w sp s : Bytes} {v : Bytes} {ws : List Bytes} : Blank b → Word w → sp ∈ whiteSpace → Separated s (v :: ws) →
      Separated (b ++ w ++ sp ++ s) (w :: v :: ws)

/-- The text of words with single spaces between them. -/
def spaced : List Bytes → Bytes
  | [] => []
  | w :: ws => w ++ ws.flatMap (fun v => 0x20 :: v)

/-- A list to take words from: 2048 different words. -/
structure WordList (wl : List Bytes) : Prop where
  size : wl.length = 2048
  nodup : wl.Nodup
  words : ∀ w ∈ wl, Word w

/-- The words at these places of the list. -/
def wordsAt (wl : List Bytes) (is : List Nat) : List Bytes := is.map (fun i => wl.getD i [])

/-- The places of the words for an entropy: groups of 11 bits of the entropy followed by its checksum, which is the first
bit of its SHA-256 for every four bytes. -/
def Places [Hashes] (entropy : Bytes) (is : List Nat) : Prop :=
  (∀ i ∈ is, i < 2048) ∧
    is.flatMap (bitsOf 11) = bitStream 8 entropy ++ (bitStream 8 (Hashes.sha256 entropy)).take (entropy.length / 4)

/-- The mnemonic of an entropy. -/
def Mnemonic [Hashes] (wl : List Bytes) (entropy : Bytes) (ws : List Bytes) : Prop :=
  ∃ is, Places entropy is ∧ ws = wordsAt wl is

/-- The sizes there are: 128, 160, 192, 224 and 256 bits. -/
def EntropySize (n : Nat) : Prop := n = 16 ∨ n = 20 ∨ n = 24 ∨ n = 28 ∨ n = 32

end Toku.Spec
