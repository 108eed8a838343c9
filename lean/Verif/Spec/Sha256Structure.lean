import Verif.Spec.Sha256

/-
Two structural notions about SHA-256, used to state the length-extension and the collision-reduction properties.
-/

namespace Spec.Sha256

/-- The hash value read back from the 32 bytes of a digest. -/
def stateOf (digest : List Byte) : State := Vector.ofFn fun i : Fin 8 => be32At digest (4 * i)

/-- The bytes FIPS 180-4 appends to a message of `n` bytes. -/
def glue (n : Nat) : List Byte := padding n (8 * n)

/-- The hash of an unknown message of `n` bytes followed by `glue n` and by `x`, computed from the digest of the unknown
message and from `n` only. -/
def extend (digest : List Byte) (n : Nat) (x : List Byte) : List Byte :=
  let total := n + (glue n).length + x.length
  output (hashAll (stateOf digest) (x ++ padding total (8 * total)))

/-- A message with its padding. -/
def padded (m : List Byte) : List Byte := m ++ glue m.length

/-- What the compression function receives at block `i` while `m` is hashed: the hash value so far and the 16 words of the
block. -/
def stepInput (m : List Byte) (i : Nat) : State × Vector Word 16 :=
  (hashBlocks initial (padded m) i, Vector.ofFn fun t : Fin 16 => blockWord (padded m) i t)

/-- The compression function on such a pair. -/
def compressPair (x : State × Vector Word 16) : State := compress x.1 (fun t => x.2.toList.getD t 0)

/-- The computations of the hashes of `m` and `m'` exhibit a collision of the compression function: at some block of the one and
some block of the other it receives different inputs and returns the same value. (That some collision exists somewhere is
clear, the inputs being longer than the outputs; here it is one that occurs in these two computations.) -/
def CollisionIn (m m' : List Byte) : Prop :=
  ∃ i j, i < (padded m).length / 64 ∧ j < (padded m').length / 64 ∧ stepInput m i ≠ stepInput m' j ∧
    compressPair (stepInput m i) = compressPair (stepInput m' j)

end Spec.Sha256
