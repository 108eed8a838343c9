import Verif.Model.Common
import Verif.Model.AesCbc
import Verif.Model.Scrypt

/-! Properties of `common.rs` (C41) and of the error types (C42). -/

namespace Verif.Props.Common
open Verif

/-- C41: the value of `wrapping_sum!`, read as a number, is the sum of its arguments modulo `2 ^ width`. -/
theorem C41_sum {w : Nat} (a : BitVec w) (xs : List (BitVec w)) :
    (wrapping_sum a xs).toNat = (a.toNat + (xs.map BitVec.toNat).sum) % 2 ^ w := by
  induction xs generalizing a with
  | nil => simp [wrapping_sum, Nat.mod_eq_of_lt a.isLt]
  | cons x xs ih =>
    have := ih (a + x)
    rw [wrapping_sum] at this ⊢
    rw [List.foldl_cons, this, BitVec.toNat_add, Nat.mod_add_mod, List.map_cons, List.sum_cons, Nat.add_assoc]

/-- C41: the order of the arguments does not matter. -/
theorem C41_order {w : Nat} (a b : BitVec w) (xs ys : List (BitVec w)) (h : (a :: xs).Perm (b :: ys)) :
    wrapping_sum a xs = wrapping_sum b ys := by
  apply BitVec.eq_of_toNat_eq
  rw [C41_sum, C41_sum]
  have := (h.map BitVec.toNat).sum_nat
  simp only [List.map_cons, List.sum_cons] at this
  rw [this]

/-- Three arguments whose sum overflows, in two orders. -/
example : wrapping_sum (0xffffffff : U32) [2, 0x80000000] = wrapping_sum (0x80000000 : U32) [0xffffffff, 2] ∧
    wrapping_sum (0xffffffff : U32) [2, 0x80000000] = 0x80000001 :=
  ⟨C41_order _ _ _ _ (by decide), by decide⟩

/-- C42: the text of an `AESError` starts with its type name, and determines the error. -/
theorem C42_aes (e e' : Aes.AESError) :
    e.display = "AESError: " ++ e.description ∧ (e.display = e'.display → e = e') :=
  ⟨rfl, by cases e <;> cases e' <;> decide⟩

/-- C42: the text of an `UnpadError`. -/
theorem C42_unpad (e e' : Pkcs7.UnpadError) :
    e.display = "UnpadError: " ++ e.description ∧ (e.display = e'.display → e = e') :=
  ⟨rfl, by cases e <;> cases e' <;> decide⟩

/-- C42: the text of a `DecipherError` consists of its type name and the description of the error inside. -/
theorem C42_decipher (e e' : AesCbc.DecipherError) :
    e.display = "DecipherError: " ++ (match e with | .AES a => a.description | .PKCS7 p => p.description) ∧
      (e.display = e'.display → e = e') := by
  constructor
  · cases e <;> rfl
  · rcases e with e | e <;> rcases e' with e' | e' <;> cases e <;> cases e' <;> decide

/-- C42: the text of a `ScryptError`. -/
theorem C42_scrypt (e e' : Scrypt.ScryptError) :
    e.display = "ScryptError: " ++ e.description ∧ (e.display = e'.display → e = e') :=
  ⟨rfl, by cases e <;> cases e' <;> decide⟩

end Verif.Props.Common
