import Verif.Spec.Games
import Verif.Spec.Scrypt

/-
The table of scryptROMix (RFC 7914, section 5) and those who do not keep all of it. A function `f` on strings of `w` octets stands in the
place of scryptBlockMix. Every evaluation of it is counted.
-/

namespace Spec.TableGames
open Spec Spec.Games

/-- A string of `w` octets: for scryptBlockMix with block size `r`, `w` is `128 * r`. -/
abbrev Entry (w : Nat) := List.Vector Byte w

/-- An algorithm that evaluates a function on `E`, one evaluation after the other, and gives an element of `E` in the end. -/
inductive Algorithm (E : Type) where
  | result (y : E)
  | eval (x : E) (next : (y : E) → Algorithm E)

/-- The result when the function is `f`. -/
def Algorithm.run {E : Type} (f : E → E) : Algorithm E → E
  | .result y => y
  | .eval x next => (next (f x)).run f

/-- The number of evaluations when the function is `f`. -/
def Algorithm.time {E : Type} (f : E → E) : Algorithm E → Nat
  | .result _ => 0
  | .eval x next => (next (f x)).time f + 1

/-- There are at most `q` evaluations, whatever the function is. -/
def Algorithm.Within {E : Type} : (q : Nat) → Algorithm E → Prop
  | _, .result _ => True
  | q, .eval _ next => 1 ≤ q ∧ ∀ y, (next y).Within (q - 1)

/-- Section 5, step 2: `V[i]`. -/
def entry {E : Type} (f : E → E) (B : E) : Nat → E
  | 0 => B
  | i + 1 => f (entry f B i)

/-- Section 5, step 3: `X` after `k` iterations; `index X` is Integerify. -/
def state {w : Nat} (f : Entry w → Entry w) (index : Entry w → Nat) (N : Nat) (B : Entry w) : Nat → Entry w
  | 0 => entry f B N
  | k + 1 => f (List.Vector.map₂ (· ^^^ ·) (state f index N B k) (entry f B (index (state f index N B k) % N)))

/-- Section 5: scryptROMix. -/
def roMix {w : Nat} (f : Entry w → Entry w) (index : Entry w → Nat) (N : Nat) (B : Entry w) : Entry w := state f index N B N

/-- An octet string of size `w`. -/
def ofList (w : Nat) (l : List Byte) : Entry w := List.Vector.ofFn fun i => l.getD i 0

/-- scryptBlockMix as a function on strings of `128 * r` octets. -/
def blockMix (r : Nat) (X : Entry (128 * r)) : Entry (128 * r) := ofList (128 * r) (Scrypt.blockMix r X.toList)

/-- The entries of a table of `N` that an algorithm finds: `a j` looks for entry number `j`. -/
def found {E : Type} [DecidableEq E] (f : E → E) (B : E) {N : Nat} (a : Fin N → Algorithm E) : Finset (Fin N) :=
  Finset.univ.filter fun j => (a j).run f = entry f B j

/-- The number of evaluations for the entries in `J`, each one looked for by itself. -/
def total {E : Type} (f : E → E) {N : Nat} (a : Fin N → Algorithm E) (J : Finset (Fin N)) : Nat := ∑ j ∈ J, (a j).time f

/-- The one who keeps every `k`-th entry, and evaluates the function to find the others. -/
def climb {E : Type} : (n : Nat) → (x : E) → Algorithm E
  | 0, x => .result x
  | n + 1, x => .eval x fun y => climb n y

/-- Entry number `j` of the table, from `kept`, the entries number `0`, `k`, `2 * k` and so on. -/
def fromKept {E : Type} (k : Nat) {p N : Nat} (h : N = p * k) (kept : Fin p → E) (j : Fin N) : Algorithm E :=
  climb (j % k) (kept ⟨j / k, Nat.div_lt_of_lt_mul (by rw [Nat.mul_comm, ← h]; exact j.isLt)⟩)

end Spec.TableGames
