import Verif.Spec.Keys
import Verif.Spec.Ecdsa
import Verif.Spec.Ripemd
import Verif.Model.Hmac
import Mathlib.Data.Nat.Digits.Defs
/-
BIP 32: child keys and derivation paths. HMAC-SHA512 is over the SHA-512 parameter.
-/
namespace Toku.Spec

/-- The 64 bytes `I` for child `i` of a key with number `d`, point `q` and chain code `c`: HMAC-SHA512 keyed with the
chain code, over a zero byte and the number (hardened children) or the compressed point, then the index. -/
def ChildHash [Hashes] (c : Bytes) (d : ℕ) (q : Pt) (i : ℕ) (out : Bytes) : Prop :=
  (2 ^ 31 ≤ i ∧ out = hmac512 c (0 :: be 32 d ++ be 4 i)) ∨
  (i < 2 ^ 31 ∧ ∃ qb, Compressed q qb ∧ out = hmac512 c (qb ++ be 4 i))

/-- The first four bytes of HASH160 of the compressed point. -/
def Fingerprint [Hashes] (q : Pt) (fp : Bytes) : Prop :=
  ∃ qb, Compressed q qb ∧ fp = (Ripemd.ripemd160 (Hashes.sha256 qb)).take 4

/-! ### Text -/

/-- The 82 bytes with these fields. -/
def extBytes (version : Bytes) (depth : UInt8) (fp num chain key ck : Bytes) : Bytes :=
  version ++ [depth] ++ fp ++ num ++ chain ++ key ++ ck

/-! ### Paths -/

/-- `w` is the decimal numeral of `n`, perhaps with leading zeros. -/
def Decimal (w : Bytes) (n : ℕ) : Prop :=
  w ≠ [] ∧ ∃ ds : List ℕ, (∀ d ∈ ds, d < 10) ∧ w = ds.map (fun d => UInt8.ofNat (48 + d)) ∧ n = Nat.ofDigits 10 ds.reverse

/-- One component of a path: `n` is child `n`, `n'` is the hardened child `n`, with index `n + 2^31`. -/
def Component (w : Bytes) (i : UInt32) : Prop :=
  (∃ n, Decimal w n ∧ n < 2 ^ 32 ∧ i.toNat = n) ∨
  (∃ u n, w = u ++ [0x27] ∧ Decimal u n ∧ n < 2 ^ 31 ∧ i.toNat = n + 2 ^ 31)

/-- The text of a list of components: `m`, then `/` before each. -/
def pathText (ws : List Bytes) : Bytes := 0x6d :: ws.flatMap (fun w => 0x2f :: w)

/-- A path and the indices it stands for. The empty text stands for the key itself. -/
def PathIs (s : Bytes) (is : List UInt32) : Prop :=
  (s = [] ∧ is = []) ∨ ∃ ws, List.Forall₂ Component ws is ∧ s = pathText ws

end Toku.Spec
