import Verif.Spec.ScryptPrice

/-
Trying a password when it is known which entry of its table scrypt has read first, and the derived key is not known. This takes the first half
of the work on one part of `B`, and no table.
-/

namespace Spec.ScryptPrice
open Spec
open Spec.ScryptGames (Params)
open Spec.Scrypt (integerify)

/-- RFC 7914 section 5, step 2, without the table: `scryptBlockMix`, `n` times from `X` on; then what `k` makes of the last value. One value is
kept at a time. -/
def advance {β : Type} (r : Nat) : (n : Nat) → (X : List Byte) → (List Byte → Algorithm β) → Algorithm β
  | 0, X, k => k X
  | n + 1, X, k => blockMix r X fun X' => advance r n X' k

/-- The number of the first entry of the table that is read for part number `i` of `B` (section 5, step 3). -/
def peek (P : Params) (key salt : List Byte) (i : Nat) : Algorithm Nat :=
  blocks key salt (4 * P.r * i) (4 * P.r) fun B => advance P.r P.N B fun X => .result (integerify P.r X % P.N)

end Spec.ScryptPrice
