import Verif.Spec.Multicollision

/-
The hash value that a block leaves as it is. The rounds of SHA-256 can be undone when the block is known, so it is found at once.
-/

namespace Spec.Sha256

/-- The working variables before a round, from those after it. -/
def unround (k w : Word) (s : State) : State :=
  let a := s[1]; let b := s[2]; let c := s[3]
  let e := s[5]; let f := s[6]; let g := s[7]
  let T1 := s[0] - (bigSigma0 a + Maj a b c)
  #v[a, b, c, s[4] - T1, e, f, g, T1 - bigSigma1 e - Ch e f g - k - w]

/-- The working variables before the rounds `0 .. n - 1`, from those after them. -/
def unrounds (m : Nat → Word) (s : State) : Nat → State
  | 0 => s
  | t + 1 => unrounds m (unround (K t) (W m t) s) t

/-- The hash value from which the 64 rounds with a given block lead to zeros. -/
def fixedPoint (b : Block) : State := unrounds (blockWord b.toList 0) (Vector.replicate 8 0) 64

end Spec.Sha256
