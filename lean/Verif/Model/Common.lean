import Verif.Rust

/-! Model of `/repo/src/common.rs`. -/

namespace Verif

/-- `wrapping_sum!` (src/common.rs:1-12): `acc = a; acc = acc.wrapping_add(x)` for every further argument.
The variadic macro becomes a function of the list of further arguments. -/
def wrapping_sum {w : Nat} (a : BitVec w) (xs : List (BitVec w)) : BitVec w :=
  xs.foldl (fun acc x => acc + x) a

/-- The closure of `hex_to_vec` (src/common.rs:16-21): the value of one letter, or `panic!()`.
The ranges of the arms make the three subtractions exact; the addition of 10 is at most 15. -/
def hexLetter (letter : U8) : M U8 :=
  if 0x30 ≤ letter ∧ letter ≤ 0x39 then pure (letter - 0x30)
  else if 0x61 ≤ letter ∧ letter ≤ 0x66 then pure (letter - 0x61 + 10)
  else if 0x41 ≤ letter ∧ letter ≤ 0x46 then pure (letter - 0x41 + 10)
  else throw .explicit

/-- `hex_to_vec` (src/common.rs:14-28), the helper of the crate's own tests, on the bytes of the string.
The iterator is lazy: a letter is looked at when the loop asks for it. Both halves of the tuple of the
`while let` are evaluated, so an odd last letter is looked at and then dropped.
Simplified: the vector is built by recursion instead of pushes, and its capacity, which has no
observable effect, is left out. -/
def hex_to_vec : List U8 → M (List U8)
  | [] => pure []
  | [h] => do
    let _ ← hexLetter h
    pure []
  | h :: l :: rest => do
    let h ← hexLetter h
    let l ← hexLetter l
    let result ← hex_to_vec rest
    pure (((h <<< 4) ||| l) :: result)

end Verif
