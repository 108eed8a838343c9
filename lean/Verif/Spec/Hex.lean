/-! Hexadecimal notation. -/

namespace Spec.Hex

/-- The value a hexadecimal digit stands for. -/
def digits : List (Char × Nat) :=
  [('0', 0), ('1', 1), ('2', 2), ('3', 3), ('4', 4), ('5', 5), ('6', 6), ('7', 7), ('8', 8), ('9', 9),
   ('a', 10), ('b', 11), ('c', 12), ('d', 13), ('e', 14), ('f', 15),
   ('A', 10), ('B', 11), ('C', 12), ('D', 13), ('E', 14), ('F', 15)]

/-- `c`, as an ASCII byte, is a hexadecimal digit of value `v`. -/
def IsDigit (c : BitVec 8) (v : Nat) : Prop := ∃ p ∈ digits, p.1.toNat = c.toNat ∧ p.2 = v

/-- `text` writes the bytes `bytes` in hexadecimal: two digits a byte, the high one first,
in upper or lower case. -/
inductive Writes : List (BitVec 8) → List (BitVec 8) → Prop where
  | nil : Writes [] []
  | cons {h l b : BitVec 8} {hi lo : Nat} {text bytes} : IsDigit h hi → IsDigit l lo →
      b.toNat = 16 * hi + lo → Writes text bytes → Writes (h :: l :: text) (b :: bytes)

end Spec.Hex
