import Verif.Proof.Bech32
import Verif.Proof.Bech32Table
/-
Kernel-checked facts about the Bech32 syndrome tables (finite tables, checked entry by entry).
-/
namespace Toku.Bech32
set_option maxRecDepth 100000

/-- every bit map contains the residue of `v` -/
def hit (v : Nat) : List (Nat × Nat) → Bool
  | [] => true
  | (q, B) :: ms => Nat.testBit B (v % q) && hit v ms
def rowOk (r1 : Nat) : List Nat → Bool
  | [] => true
  | x :: xs => !(hit ((r1 ^^^ x) / 32) maps) && rowOk r1 xs
def rowsOk (r1 : Nat) : List (List Nat) → Bool
  | [] => true
  | x :: xs => rowOk r1 x && rowsOk r1 xs
def pairsOk : List (List Nat) → Bool
  | [] => true
  | [] :: _ => false
  | (r1 :: _) :: rs => rowsOk r1 rs && pairsOk rs

theorem pairs_checked : pairsOk (rows.drop 1) = true := by decide +kernel

theorem rows_length : rows.length = 88 := by decide +kernel

def chainOk : List (List Nat) → Bool
  | [] => true
  | [_] => true
  | a :: b :: rs => (a.map L == b) && chainOk (b :: rs)

theorem rows_chain : chainOk rows = true := by decide +kernel

theorem rows_head : rows.head? = some ((List.range 31).map (· + 1)) := by decide +kernel

theorem rows_hit : ((rows.drop 1).all fun r => r.all fun x => hit (x / 32) maps) = true := by decide +kernel

theorem zero_hit : hit 0 maps = true := by decide +kernel

theorem rows_big : ((rows.drop 1).all fun r => r.all fun x => decide (32 ≤ x)) = true := by decide +kernel

end Toku.Bech32
