import Verif.Spec.Aes

/-
The key expansion of AES, run backwards.
-/

namespace Spec.Aes
open Spec

/-- What is added to word `i - nk` of the key schedule in order to get word `i` (FIPS-197, Figure 11), `temp` being word `i - 1`. -/
def summand (nk i : Nat) (temp : Word4) : Word4 :=
  if i % nk = 0 then xorWord (subWord (rotWord temp)) (rcon (i / nk))
  else if nk > 6 ∧ i % nk = 4 then subWord temp
  else temp

/-- From `nk` words `w 0, ..., w (nk - 1)` at the places `i + 1, ..., i + nk` of a key schedule, the words at the places
`i, ..., i + nk - 1`. -/
def back (nk i : Nat) (w : Nat → Word4) : Nat → Word4
  | 0 => xorWord (w (nk - 1)) (summand nk (i + nk) (w (nk - 2)))
  | j + 1 => w j

/-- From `nk` words at the places `i, ..., i + nk - 1`, the words at the places `0, ..., nk - 1`. -/
def backAll (nk : Nat) : Nat → (Nat → Word4) → Nat → Word4
  | 0, w => w
  | i + 1, w => backAll nk i (back nk i w)

/-- The key of `4 * nk` octets, from the `4 * nk` octets of `nk` words of its key schedule that begin with word `i`. -/
def keyFrom (nk i : Nat) (octets : List Byte) : List Byte :=
  (List.range (4 * nk)).map fun k => backAll nk i (fun j r => byteAt octets (4 * j + r)) (k / 4) (Fin.ofNat 4 (k % 4))

/-- The octets of words of 32 bits, the most significant one of each word first. -/
def octets (ws : List Word) : List Byte := ws.flatMap fun w => beBytes 4 w.toNat

end Spec.Aes
