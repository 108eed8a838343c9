import Verif.Spec.Aes
import Verif.Spec.Games

/-
Differences between two encryptions with AES, round by round, when the round keys are chosen at random.
-/

namespace Spec.Aes
open Spec Spec.Games

/-- The difference of two states, byte by byte. -/
def xorState (s t : State) : State := fun r c => s r c ^^^ t r c

/-- The number of bytes that are not zero. -/
def active (d : State) : Nat := ∑ r, ∑ c, if d r c = 0 then 0 else 1

/-- The state that goes into the S-boxes of round `i`, the first round being number 0, if `k 0, k 1, ...` are the round keys
(Figure 5 of FIPS-197, as far as the rounds that mix the columns go). -/
def before (k : Nat → State) (input : State) : Nat → State
  | 0 => xorState input (k 0)
  | i + 1 => xorState (mixColumns (shiftRows (subBytes (before k input i)))) (k (i + 1))

/-- With the `n + 1` round keys `k`, the differences between the encryptions of `p` and `q` are those that are foretold: `d i` is the
difference of what goes into the S-boxes of round `i`. -/
def Foretold (n : Nat) (d : Fin (n + 1) → State) (p q : State) (k : Fin (n + 1) → State) : Prop :=
  ∀ i : Fin (n + 1), xorState (before (fun j => k (Fin.ofNat (n + 1) j)) p i) (before (fun j => k (Fin.ofNat (n + 1) j)) q i) = d i

open Classical in
/-- The probability of this when the round keys are independent and uniformly random. -/
noncomputable def chance (n : Nat) (d : Fin (n + 1) → State) (p q : State) : ℚ :=
  avg fun k : Fin (n + 1) → State => if Foretold n d p q k then 1 else 0

/-- The round keys of a key of 16, 24 or 32 octets. -/
def roundKey (key : List Byte) (i : Nat) : State := fun r c => keyWord (key.length / 4) key (4 * i + c) r

end Spec.Aes
