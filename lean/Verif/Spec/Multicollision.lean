import Verif.Spec.Sha256

/-
Many messages with one digest, from a few searches for collisions (Joux, "Multicollisions in iterated hash functions", 2004).
-/

namespace Spec.Sha256

/-- A block of 64 octets. -/
abbrev Block := Vector Byte 64

/-- The hash value after one more block. -/
def next (h : State) (b : Block) : State := compress h (blockWord b.toList 0)

/-- A search for collisions of the compression function that succeeds: started with any hash value, it returns two different
blocks that lead to the same hash value. -/
def Searches (search : State → Block × Block) : Prop :=
  ∀ h, (search h).1 ≠ (search h).2 ∧ next h (search h).1 = next h (search h).2

/-- What `k` searches find, the first started with `h` and each of the others where the one before it ended. -/
def found (search : State → Block × Block) : Nat → State → List (Block × Block)
  | 0, _ => []
  | k + 1, h => search h :: found search k (next h (search h).1)

/-- The message that consists of one block out of each pair: the second one where the choice is `true`. -/
def choose (pairs : List (Block × Block)) (choice : List Bool) : List Byte :=
  (List.zipWith (fun p c => if c then p.2.toList else p.1.toList) pairs choice).flatten

end Spec.Sha256
