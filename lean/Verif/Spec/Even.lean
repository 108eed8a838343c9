import Verif.Spec.Linear
import Mathlib.GroupTheory.Perm.Sign
import Mathlib.GroupTheory.SpecificGroups.Alternating
import Mathlib.Data.Fintype.BigOperators

/-
Even permutations of blocks: those that are made of an even number of exchanges of two blocks.
-/

namespace Spec.Aes
open Spec

/-- A block of 16 octets. -/
abbrev Block16 := Vector Byte 16

/-- Blocks and functions that give an octet for each of the 16 positions are the same. -/
def blockEquiv : Block16 ≃ (Fin 16 → Byte) where
  toFun b i := b[i]
  invFun f := Vector.ofFn f
  left_inv b := by ext i hi; simp
  right_inv f := by funext i; simp

instance : Fintype Block16 := Fintype.ofEquiv _ blockEquiv.symm

/-- The permutation is even. -/
def Even (f : Equiv.Perm Block16) : Prop := Equiv.Perm.sign f = 1

end Spec.Aes
