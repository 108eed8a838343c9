import Verif.Spec.Trail

/-
Linear equations between the bits of a block, of its encryption with AES and of the round keys, when the round keys are chosen at random.
-/

namespace Spec.Aes
open Spec Spec.Games

/-- A linear function of the bits of a byte: the exclusive-or of some of them. -/
def LinearByte (f : Byte → Bool) : Prop := ∀ x y, f (x ^^^ y) = (f x ^^ f y)

/-- A linear function of the bits of a state. -/
def Linear (f : State → Bool) : Prop := ∀ s t, f (xorState s t) = (f s ^^ f t)

/-- The encryption of a block in `n + 1` rounds, with the round keys `k 0, ..., k n` and the last one (Figure 5 of FIPS-197). -/
def ciphertext (n : Nat) (k : Nat → State) (last : State) (input : State) : State :=
  xorState (shiftRows (subBytes (before k input n))) last

/-- The exclusive-or of functions of the round keys. -/
def keyBits {n : Nat} (f : Fin n → State → Bool) (k : Fin n → State) : Bool := (List.ofFn fun i => f i (k i)).foldr xor false

/-- The chance that an equation between the bits of the encryption of a block and of the round keys is true, with random round keys.
The left side is the exclusive-or of functions of the encryption, of the round keys and of the last round key. -/
def chanceOf (n : Nat) (out : State → Bool) (f : Fin (n + 1) → State → Bool) (g : State → Bool) (value : Bool) (input : State) : ℚ :=
  avg fun k : Fin (n + 1) → State => avg fun last : State =>
    if (out (ciphertext n (fun j => k (Fin.ofNat (n + 1) j)) last input) ^^ keyBits f k ^^ g last) = value then 1 else 0

end Spec.Aes
