import Verif.Model.Big
import Verif.Model.Hmac
import Verif.Model.Base58
import Verif.Model.Pbkdf2
/-
xcore/bip39/bip39.go. Strings are byte lists. The package-wide word list set by `SetWordList` is a parameter `wl`; the
reverse map, which `SetWordList` fills from the list, is the function `wordIndex`.
-/
namespace Toku.Bip39

def errMnemonic : Err := .other 60
def errEntropyLength : Err := .other 61
def errChecksum : Err := .other 62
def errWord : Err := .other 63

/-! ### The functions of package strings -/

/-- The UTF-8 forms of the characters for which `unicode.IsSpace` holds: tab to carriage return, space, U+0085, U+00A0,
U+1680, U+2000 to U+200A, U+2028, U+2029, U+202F, U+205F, U+3000. -/
def spaces : List Bytes :=
  [[0x09], [0x0a], [0x0b], [0x0c], [0x0d], [0x20], [0xc2, 0x85], [0xc2, 0xa0], [0xe1, 0x9a, 0x80],
   [0xe2, 0x80, 0x80], [0xe2, 0x80, 0x81], [0xe2, 0x80, 0x82], [0xe2, 0x80, 0x83], [0xe2, 0x80, 0x84], [0xe2, 0x80, 0x85],
   [0xe2, 0x80, 0x86], [0xe2, 0x80, 0x87], [0xe2, 0x80, 0x88], [0xe2, 0x80, 0x89], [0xe2, 0x80, 0x8a],
   [0xe2, 0x80, 0xa8], [0xe2, 0x80, 0xa9], [0xe2, 0x80, 0xaf], [0xe2, 0x81, 0x9f], [0xe3, 0x80, 0x80]]

/-- The length of the white space character at the beginning of a text, 0 if there is none. -/
def spaceLen (s : Bytes) : Nat :=
  match spaces.find? (fun sp => sp.isPrefixOf s) with
  | none => 0
  | some sp => sp.length

/-- `strings.Fields`: `skip` counts the bytes left of a white space character, `cur` is the word being read. The code of
the library decodes character by character; since the first byte of a character never occurs inside another one, looking
for white space at every byte finds the same places. -/
def fieldsLoop : Bytes → Nat → Bytes → List Bytes
  | [], _, cur => if cur = [] then [] else [cur]
  | _ :: s, k + 1, cur => fieldsLoop s k cur
  | c :: s, 0, cur =>
    match spaceLen (c :: s) with
    | 0 => fieldsLoop s 0 (cur ++ [c])
    | n + 1 => if cur = [] then fieldsLoop s n [] else cur :: fieldsLoop s n []

/-- `strings.Fields` -/
def fields (s : Bytes) : List Bytes := fieldsLoop s 0 []

/-- `strings.Split(s, " ")` -/
def splitSpace : Bytes → List Bytes
  | [] => [[]]
  | c :: s => if c = 0x20 then [] :: splitSpace s else
    match splitSpace s with
    | [] => [[c]]
    | w :: ws => (c :: w) :: ws

/-- `strings.Join(words, " ")` -/
def join : List Bytes → Bytes
  | [] => []
  | [w] => w
  | w :: ws => w ++ 0x20 :: join ws

/-! ### Helpers -/

/-- xcore/bip39/bip39.go:79-85, 93-96: the map from words to their places; a word that occurs twice has the last place. -/
def wordIndex : List Bytes → Bytes → Option Nat
  | [], _ => none
  | w :: ws, v =>
    match wordIndex ws v with
    | some i => some (i + 1)
    | none => if w = v then some 0 else none

/-- xcore/bip39/bip39.go:343-351 -/
def padByteSlice (slice : Bytes) (length : Nat) : Bytes := List.replicate (length - slice.length) 0 ++ slice

/-- xcore/bip39/bip39.go:334-339 -/
def validateEntropyBitSize (bitSize : Nat) : Res Unit :=
  if bitSize % 32 ≠ 0 ∨ bitSize < 128 ∨ bitSize > 256 then .err errEntropyLength else .ok ()

/-- xcore/bip39/bip39.go:367-379 -/
def splitMnemonicWords (mnemonic : Bytes) : Option (List Bytes) :=
  let words := fields mnemonic
  if words.length % 3 ≠ 0 ∨ words.length < 12 ∨ words.length > 24 then none else some words

/-- xcore/bip39/bip39.go:276-295 -/
def isMnemonicValid (wl : List Bytes) (mnemonic : Bytes) : Bool :=
  let words := fields mnemonic
  if words.length % 3 ≠ 0 ∨ words.length < 12 ∨ words.length > 24 then false
  else words.all (fun w => (wordIndex wl w).isSome)

/-- xcore/bip39/bip39.go:32-38 -/
def checksumMask : Nat → Option Nat
  | 12 => some 15
  | 15 => some 31
  | 18 => some 63
  | 21 => some 127
  | 24 => some 255
  | _ => none

/-- xcore/bip39/bip39.go:42-47 -/
def checksumShift : Nat → Option Nat
  | 12 => some 16
  | 15 => some 8
  | 18 => some 4
  | 21 => some 2
  | _ => none

section
variable [Hashes]

/-- xcore/bip39/bip39.go:324-330 -/
def computeChecksum (data : Bytes) : Bytes := Hashes.sha256 data

/-- xcore/bip39/bip39.go:311-319: `n` bits, from bit number `i` on. The shift count is unsigned, so from the ninth bit
on the mask is 0. -/
def checksumLoop (first : UInt8) : Nat → Nat → Nat → Nat
  | 0, _, d => d
  | n + 1, i, d =>
    let d := d * 2
    let mask : Nat := if i ≤ 7 then 1 <<< (7 - i) else 0
    checksumLoop first n (i + 1) (if first.toNat &&& mask > 0 then d ||| 1 else d)

/-- xcore/bip39/bip39.go:299-322 -/
def addChecksum (data : Bytes) : Bytes :=
  let first := (computeChecksum data).headD 0
  natToBE (checksumLoop first (data.length / 4) 0 (natOfBE data))

/-- xcore/bip39/bip39.go:195-205: the words from the last to the first. -/
def wordsLoop (wl : List Bytes) : Nat → Nat → List Bytes → Res (List Bytes)
  | 0, _, acc => .ok acc
  | n + 1, v, acc =>
    let word := v &&& 2047
    match wl[word]? with
    | none => .panic
    | some w => wordsLoop wl n (v / 2048) (w :: acc)

/-- xcore/bip39/bip39.go:166-207 -/
def newMnemonic (wl : List Bytes) (entropy : Bytes) : Res Bytes := do
  let entropyBitLength := entropy.length * 8
  let checksumBitLength := entropyBitLength / 32
  let sentenceLength := (entropyBitLength + checksumBitLength) / 11
  validateEntropyBitSize entropyBitLength
  let entropyInt := natOfBE (addChecksum entropy)
  let words ← wordsLoop wl sentenceLength entropyInt []
  return join words

/-- xcore/bip39/bip39.go:125-134: the words as a number. The index is stored in two bytes. -/
def wordsNumber (wl : List Bytes) : List Bytes → Nat → Res Nat
  | [], b => .ok b
  | v :: vs, b =>
    match wordIndex wl v with
    | none => .err errWord
    | some index => wordsNumber wl vs (b * 2048 ||| index % 65536)

/-- xcore/bip39/bip39.go:117-161 -/
def entropyFromMnemonic (wl : List Bytes) (mnemonic : Bytes) : Res Bytes :=
  match splitMnemonicWords mnemonic with
  | none => .err errMnemonic
  | some words => do
    let b ← wordsNumber wl words 0
    match checksumMask words.length with
    | none => .panic
    | some mask =>
      let checksum := b &&& mask
      let entropy := padByteSlice (natToBE (b / (mask + 1))) (words.length / 3 * 4)
      let first := ((computeChecksum entropy).headD 0).toNat
      let entropyChecksum := if words.length = 24 then some first else (checksumShift words.length).map (fun m => first / m)
      match entropyChecksum with
      | none => .panic
      | some c => if checksum ≠ c then .err errChecksum else .ok entropy

/-- xcore/bip39/bip39.go:230-234: the words as a number; a word that is not in the list counts as word 0. -/
def wordsSum (wl : List Bytes) (words : List Bytes) : Nat :=
  words.foldl (fun n v => n * 2048 + (wordIndex wl v).getD 0) 0

/-- xcore/bip39/bip39.go:212-255. `raw` is the optional argument. -/
def mnemonicToByteArray (wl : List Bytes) (mnemonic : Bytes) (raw : Bool) : Res Bytes :=
  let words := splitSpace mnemonic
  let entropyBitSize := words.length * 11
  let checksumBitSize := entropyBitSize % 32
  let fullByteSize := (entropyBitSize - checksumBitSize) / 8 + 1
  let checksumByteSize := fullByteSize - fullByteSize % 4
  if isMnemonicValid wl mnemonic = false then .err errMnemonic
  else
    let checksummedEntropy := wordsSum wl words
    let rawEntropyBytes := padByteSlice (natToBE (checksummedEntropy / 2 ^ checksumBitSize)) checksumByteSize
    let checksummedEntropyBytes := padByteSlice (natToBE checksummedEntropy) fullByteSize
    let new := padByteSlice (addChecksum rawEntropyBytes) fullByteSize
    if checksummedEntropyBytes ≠ new then .err errChecksum
    else if raw then .ok rawEntropyBytes
    else .ok checksummedEntropyBytes

/-- xcore/bip39/bip39.go:269-271, with HMAC-SHA512 as the keyed hash of PBKDF2. -/
def newSeed (mnemonic password : Bytes) : Res Bytes :=
  Pbkdf2.key (hmac512 mnemonic) 64 (ascii ['m', 'n', 'e', 'm', 'o', 'n', 'i', 'c'] ++ password) 2048 64

/-- xcore/bip39/bip39.go:259-265 -/
def newSeedWithErrorChecking (wl : List Bytes) (mnemonic password : Bytes) : Res Bytes := do
  let _ ← mnemonicToByteArray wl mnemonic false
  newSeed mnemonic password

/-- xcore/bip39/bip39.go:102-112. `random` stands for the bytes the generator of package math/rand delivers. -/
def newEntropy (bitSize : Nat) (random : Nat → UInt8) : Res Bytes := do
  validateEntropyBitSize bitSize
  return (List.range (bitSize / 8)).map random

/-- xcore/bip39/bip39.go:397-418: the list of words in force afterwards, and the mnemonic. The parameters are the lists of package
words for the constants ENGLISH, CHINESE and JAPANESE; any other constant takes the first. -/
def newBIP39 (english chinese japanese : List Bytes) (list : Nat) (random : Nat → UInt8) : List Bytes × Res (Bytes × Bytes) :=
  let wl := if list = 1 then chinese else if list = 2 then japanese else english
  (wl, do
    let entropy ← newEntropy 128 random
    let mnemonic ← newMnemonic wl entropy
    return (entropy, mnemonic))

/-- xcore/bip39/bip39.go:427-429 -/
def seed (mnemonic : Bytes) : Res Bytes := newSeed mnemonic (ascii ['T', 'R', 'E', 'Z', 'O', 'R'])

end

end Toku.Bip39
