import Verif.Proof.Aes
import Verif.Proof.AesPoly

/-! Property C27: the field arithmetic and the tables of `aes.rs`. -/

namespace Verif.Props.AesPoly
open Verif Verif.Aes Polynomial
open Spec.Aes (natPoly aesPoly gmul ginv sbox invSbox)

/-- **C27.** `mul` computes, for every byte and every `usize` multiplier, the remainder of the product of the two
polynomials modulo `x^8 + x^4 + x^3 + x + 1`. -/
theorem C27_mul (T : Target) (b : U8) (n : Nat) (h : n < 2 ^ T.bits) :
    natPoly 8 (mul b n).toNat = (natPoly 8 b.toNat * natPoly T.bits n) %ₘ aesPoly :=
  mul_poly b n T.bits (by rcases T.bits_cases with h | h <;> omega) h

/-- The hypothesis of `C27_mul` holds for multipliers above a byte. -/
example (T : Target) (b : U8) : natPoly 8 (mul b 0x1ff).toNat = (natPoly 8 b.toNat * natPoly T.bits 0x1ff) %ₘ aesPoly :=
  C27_mul T b _ (lt_of_lt_of_le (by norm_num) T.two_pow_ge)

/-- **C27.** For multipliers of one byte `mul` is the field product of the specification. -/
theorem C27_mul_byte (b c : U8) : mul b c.toNat = gmul b c := mul_gmul b c

/-- The field product of the specification is the product of polynomials modulo `x^8 + x^4 + x^3 + x + 1`. -/
theorem gmul_poly (a b : Spec.Byte) :
    natPoly 8 (gmul a b).toNat = (natPoly 8 a.toNat * natPoly 8 b.toNat) %ₘ aesPoly := by
  rw [← C27_mul_byte, mul_poly a b.toNat 8 (by decide) b.isLt]

/-- The inverse of the specification is the multiplicative inverse. -/
theorem ginv_inverse (b : Spec.Byte) : (b ≠ 0 → gmul b (ginv b) = 1) ∧ ginv 0 = 0 :=
  ⟨ginv_spec b, ginv_zero⟩

/-- **C27.** The S-box table holds the affine map of the field inverse. -/
theorem C27_sbox (b : U8) : SBOX[b.toNat]'b.isLt = sbox b := SBOX_eq b

/-- **C27.** The inverse S-box table inverts the S-box table, and conversely. -/
theorem C27_inv_sbox (b : U8) :
    INV_SBOX[(SBOX[b.toNat]'b.isLt).toNat]'(BitVec.isLt _) = b ∧ SBOX[(INV_SBOX[b.toNat]'b.isLt).toNat]'(BitVec.isLt _) = b ∧
      INV_SBOX[b.toNat]'b.isLt = invSbox b := by
  refine ⟨?_, ?_, INV_SBOX_eq b⟩
  · have := inv_sbox_table ⟨b.toNat, b.isLt⟩
    simpa using this
  · have := sbox_inv_table ⟨b.toNat, b.isLt⟩
    simpa using this

/-- **C27.** The words of `RCON` are `[x^i, 0, 0, 0]`. -/
theorem C27_rcon : ∀ i : Fin 10, RCON[i.val] = (Spec.Aes.gpow 0x02 i.val ++ 0#8 ++ 0#8 ++ 0#8 : BitVec 32) := by
  decide +kernel

/-- **C27.** Word substitution applies the S-box to the four bytes and rotation moves the first byte to the end. -/
theorem C27_words (b0 b1 b2 b3 : U8) :
    sub_word (b0 ++ b1 ++ b2 ++ b3) = .ok (sbox b0 ++ sbox b1 ++ sbox b2 ++ sbox b3) ∧
      rot_word (b0 ++ b1 ++ b2 ++ b3) = (b1 ++ b2 ++ b3 ++ b0 : BitVec 32) := by
  have inj (x y : U32) (h : wordByte x = wordByte y) : x = y := by
    have h0 := congrArg BitVec.toNat (congrFun h 0)
    have h1 := congrArg BitVec.toNat (congrFun h 1)
    have h2 := congrArg BitVec.toNat (congrFun h 2)
    have h3 := congrArg BitVec.toNat (congrFun h 3)
    have e0 (x : U32) : wordByte x 0 = BitVec.ofNat 8 (x.toNat / 2 ^ 24) := Sha256.byte_shift x 24
    have e1 (x : U32) : wordByte x 1 = BitVec.ofNat 8 (x.toNat / 2 ^ 16) := Sha256.byte_shift x 16
    have e2 (x : U32) : wordByte x 2 = BitVec.ofNat 8 (x.toNat / 2 ^ 8) := Sha256.byte_shift x 8
    have e3 (x : U32) : wordByte x 3 = BitVec.ofNat 8 (x.toNat / 2 ^ 0) := Sha256.byte_shift x 0
    simp only [e0, e1, e2, e3, BitVec.toNat_ofNat] at h0 h1 h2 h3
    apply BitVec.eq_of_toNat_eq
    have := x.isLt
    have := y.isLt
    omega
  constructor
  · obtain ⟨w, h1, h2⟩ := sub_word_ok (b0 ++ b1 ++ b2 ++ b3)
    rw [h1]
    congr 1
    apply inj
    rw [h2, ← Sha256.be32_eq, ← Sha256.be32_eq, wordByte_or, wordByte_or]
    funext r
    revert r
    exact forall_fin4 rfl rfl rfl rfl
  · apply inj
    rw [rot_word_ok, ← Sha256.be32_eq, ← Sha256.be32_eq, wordByte_or, wordByte_or]
    funext r
    revert r
    exact forall_fin4 rfl rfl rfl rfl

end Verif.Props.AesPoly
