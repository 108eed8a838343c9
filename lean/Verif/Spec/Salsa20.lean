import Verif.Spec.Sha256

/-
The Salsa20 core, written from D. J. Bernstein, "Salsa20 specification", sections 3 to 8, with the number of double rounds
as a parameter (10 in the specification, 4 in scrypt's Salsa20/8).
-/

namespace Spec.Salsa20
open Spec

/-- Section 3: the quarterround function. -/
def quarterround (y : Word × Word × Word × Word) : Word × Word × Word × Word :=
  let (y0, y1, y2, y3) := y
  let z1 := y1 ^^^ (y0 + y3).rotateLeft 7
  let z2 := y2 ^^^ (z1 + y0).rotateLeft 9
  let z3 := y3 ^^^ (z2 + z1).rotateLeft 13
  let z0 := y0 ^^^ (z3 + z2).rotateLeft 18
  (z0, z1, z2, z3)

abbrev State := Vector Word 16

/-- Section 4: the rowround function. -/
def rowround (y : State) : State :=
  let (z0, z1, z2, z3) := quarterround (y[0], y[1], y[2], y[3])
  let (z5, z6, z7, z4) := quarterround (y[5], y[6], y[7], y[4])
  let (z10, z11, z8, z9) := quarterround (y[10], y[11], y[8], y[9])
  let (z15, z12, z13, z14) := quarterround (y[15], y[12], y[13], y[14])
  #v[z0, z1, z2, z3, z4, z5, z6, z7, z8, z9, z10, z11, z12, z13, z14, z15]

/-- The transpose of the state seen as a 4 by 4 matrix. -/
def transpose (x : State) : State :=
  #v[x[0], x[4], x[8], x[12], x[1], x[5], x[9], x[13], x[2], x[6], x[10], x[14], x[3], x[7], x[11], x[15]]

/-- Section 5: the columnround function "is, from this perspective, simply the transpose of the rowround function". -/
def columnround (x : State) : State := transpose (rowround (transpose x))

/-- Section 6: the doubleround function. -/
def doubleround (x : State) : State := rowround (columnround x)

def doubleroundN : Nat → State → State
  | 0, x => x
  | n + 1, x => doubleround (doubleroundN n x)

/-- Section 7: `b0 + 2^8 b1 + 2^16 b2 + 2^24 b3`. -/
def littleendian (b0 b1 b2 b3 : Byte) : Word :=
  BitVec.ofNat 32 (b0.toNat + 2 ^ 8 * b1.toNat + 2 ^ 16 * b2.toNat + 2 ^ 24 * b3.toNat)

/-- The inverse of `littleendian`. -/
def littleendianInv (x : Word) : List Byte :=
  (List.range 4).map fun k => BitVec.ofNat 8 (x.toNat / 256 ^ k)

/-- Section 8: the words of a 64-byte input. -/
def words (x : List Byte) : State := Vector.ofFn fun i : Fin 16 =>
  littleendian (byteAt x (4 * i)) (byteAt x (4 * i + 1)) (byteAt x (4 * i + 2)) (byteAt x (4 * i + 3))

/-- Section 8: `Salsa20(x) = x + doubleround^n(x)`. -/
def core (n : Nat) (x : List Byte) : List Byte :=
  (Vector.zipWith (· + ·) (doubleroundN n (words x)) (words x)).toList.flatMap littleendianInv

end Spec.Salsa20
