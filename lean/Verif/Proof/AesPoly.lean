import Verif.Proof.AesField
import Verif.Spec.AesPoly
import Mathlib.Algebra.Polynomial.Div
import Mathlib.Algebra.CharP.Two
import Mathlib.Data.ZMod.Basic
import Mathlib.Tactic.Ring
import Mathlib.Tactic.LinearCombination
import Mathlib.Tactic.ComputeDegree

/-! `mul` computes products in `GF(2)[x] / (x^8 + x^4 + x^3 + x + 1)`. -/

namespace Verif.Aes
open Verif Polynomial
open Spec.Aes (natPoly aesPoly gmul)

theorem natPoly_zero (w : Nat) : natPoly w 0 = 0 := by simp [natPoly]

theorem natPoly_succ (w n : Nat) :
    natPoly (w + 1) n = (if n.testBit 0 then 1 else 0) + X * natPoly w (n / 2) := by
  rw [natPoly, Finset.sum_range_succ', natPoly, Finset.mul_sum, add_comm]
  rw [pow_zero]
  congr 1
  apply Finset.sum_congr rfl
  intro i _
  rw [Nat.testBit_succ]
  split
  · rw [pow_succ, mul_comm]
  · rw [mul_zero]

theorem natPoly_xor (w a b : Nat) : natPoly w (a ^^^ b) = natPoly w a + natPoly w b := by
  rw [natPoly, natPoly, natPoly, ← Finset.sum_add_distrib]
  apply Finset.sum_congr rfl
  intro i _
  rw [Nat.testBit_xor]
  cases a.testBit i <;> cases b.testBit i <;> simp [CharTwo.add_self_eq_zero]

theorem aesPoly_monic : aesPoly.Monic := by
  unfold aesPoly
  monicity!

theorem aesPoly_natDegree : aesPoly.natDegree = 8 := by
  unfold aesPoly
  compute_degree!

theorem natPoly_degree (w n : Nat) : (natPoly w n).degree < w := by
  rw [natPoly]
  refine lt_of_le_of_lt (Polynomial.degree_sum_le _ _) ?_
  refine (Finset.sup_lt_iff (WithBot.bot_lt_coe w)).2 ?_
  intro i hi
  rw [Finset.mem_range] at hi
  split
  · rw [degree_X_pow]; exact WithBot.coe_lt_coe.2 hi
  · rw [degree_zero]; exact WithBot.bot_lt_coe w

theorem natPoly_low (w k n : Nat) (h : n < 2 ^ k) (hk : k ≤ w) : natPoly w n = natPoly k n := by
  obtain ⟨d, rfl⟩ := Nat.exists_eq_add_of_le hk
  rw [natPoly, Finset.sum_range_add]
  rw [Finset.sum_eq_zero (s := Finset.range d), add_zero]
  · rfl
  · intro i _
    rw [Nat.testBit_lt_two_pow]
    · simp
    · exact lt_of_lt_of_le h (Nat.pow_le_pow_right (by decide) (by omega))

theorem double_poly (b : U8) : aesPoly ∣ natPoly 8 (double b).toNat - X * natPoly 8 b.toNat := by
  have hb := b.isLt
  have h9 : natPoly 9 (2 * b.toNat) = X * natPoly 8 b.toNat := by
    rw [natPoly_succ]
    simp
  by_cases h : (b &&& 0x80) = 0
  · have e : double b = b <<< 1 := by rw [double, if_pos h]
    have hlt : b.toNat < 128 := by
      revert h
      exact forall_byte (P := fun b => (b &&& 0x80) = 0 → b.toNat < 128) (by decide +kernel) b
    have : (double b).toNat = 2 * b.toNat := by
      rw [e, BitVec.toNat_shiftLeft, Nat.shiftLeft_eq]; omega
    rw [this, ← h9, natPoly_low 9 8 _ (by omega) (by omega), sub_self]
    exact dvd_zero _
  · have hx : 2 * b.toNat ^^^ 0x11b = (double b).toNat := by
      revert h
      exact forall_byte (P := fun b => ¬ (b &&& 0x80) = 0 → 2 * b.toNat ^^^ 0x11b = (double b).toNat)
        (by decide +kernel) b
    have h1 : natPoly 9 (2 * b.toNat ^^^ 0x11b) = natPoly 9 (2 * b.toNat) + natPoly 9 0x11b := natPoly_xor _ _ _
    have h2 : natPoly 9 0x11b = aesPoly := by
      simp [natPoly, aesPoly, Finset.sum_range_succ, Nat.testBit]
      ring
    rw [hx, natPoly_low 9 8 _ (double b).isLt (by omega), h9, h2] at h1
    rw [h1, add_sub_cancel_left]

theorem mulLoop_poly (fuel n : Nat) (p r : U8) (h : n < 2 ^ fuel) :
    aesPoly ∣ natPoly 8 (mulLoop fuel n p r).toNat - (natPoly 8 r.toNat + natPoly 8 p.toNat * natPoly fuel n) := by
  induction fuel generalizing n p r with
  | zero =>
    have : n = 0 := by omega
    subst this
    simp [mulLoop, natPoly_zero]
  | succ fuel ih =>
    rw [mulLoop]
    by_cases hn : n = 0
    · subst hn
      simp [natPoly_zero]
    · rw [if_pos hn]
      have h' : n >>> 1 < 2 ^ fuel := by
        rw [Nat.shiftRight_eq_div_pow]; omega
      have key := ih (n >>> 1) (double p) (if (n &&& 1) ≠ 0 then r ^^^ p else r) h'
      have hd := double_poly p
      have hr : natPoly 8 (if (n &&& 1) ≠ 0 then r ^^^ p else r).toNat
          = natPoly 8 r.toNat + natPoly 8 p.toNat * (if n.testBit 0 then 1 else 0) := by
        have e : (n &&& 1 ≠ 0) ↔ n.testBit 0 = true := by
          rw [Nat.testBit_zero, Nat.and_one_is_mod]; simp
        by_cases hb : n.testBit 0 = true
        · rw [if_pos (e.2 hb), if_pos hb, BitVec.toNat_xor, natPoly_xor, mul_one]
        · rw [if_neg (fun h => hb (e.1 h)), if_neg hb, mul_zero, add_zero]
      rw [natPoly_succ fuel n]
      rw [hr, show n >>> 1 = n / 2 by rw [Nat.shiftRight_eq_div_pow]] at key
      rw [show n >>> 1 = n / 2 by rw [Nat.shiftRight_eq_div_pow]]
      obtain ⟨u, hu⟩ := key
      obtain ⟨v, hv⟩ := hd
      refine ⟨u + v * natPoly fuel (n / 2), ?_⟩
      linear_combination hu + natPoly fuel (n / 2) * hv

theorem mul_poly (b : U8) (n : Nat) (w : Nat) (hw : w ≤ 64) (h : n < 2 ^ w) :
    natPoly 8 (mul b n).toNat = (natPoly 8 b.toNat * natPoly w n) %ₘ aesPoly := by
  have h64 : n < 2 ^ 64 := lt_of_lt_of_le h (Nat.pow_le_pow_right (by decide) hw)
  have key := mulLoop_poly 64 n b 0 h64
  have z : natPoly 8 (0 : U8).toNat = 0 := natPoly_zero 8
  rw [z, zero_add, natPoly_low 64 w n h hw] at key
  have hd : natPoly 8 (mul b n).toNat %ₘ aesPoly = natPoly 8 (mul b n).toNat := by
    apply (modByMonic_eq_self_iff aesPoly_monic).2
    refine lt_of_lt_of_le (natPoly_degree 8 _) ?_
    rw [degree_eq_natDegree aesPoly_monic.ne_zero, aesPoly_natDegree]
  rw [← hd]
  exact modByMonic_eq_of_dvd_sub aesPoly_monic key

theorem bxor_zero (a : U8) : a ^^^ 0 = a := BitVec.xor_zero
theorem bzero_xor (a : U8) : 0 ^^^ a = a := BitVec.zero_xor

theorem byte_halve : ∀ t : Fin 256, BitVec.ofNat 8 t.val
    = (if (t.val &&& 1) ≠ 0 then (1 : U8) else 0) ^^^ gmul 2 (BitVec.ofNat 8 (t.val / 2)) := by
  decide +kernel

theorem mulLoop_gmul (fuel n : Nat) (p r : U8) (h : n < 2 ^ fuel) (h8 : n < 256) :
    mulLoop fuel n p r = r ^^^ gmul p (BitVec.ofNat 8 n) := by
  have z : gmul p 0 = 0 := by rw [gmul_comm, gmul_zero_left]
  induction fuel generalizing n p r with
  | zero =>
    have : n = 0 := by omega
    subst this
    rw [mulLoop, show BitVec.ofNat 8 0 = (0 : U8) from rfl, z, bxor_zero]
  | succ fuel ih =>
    rw [mulLoop]
    by_cases hn : n = 0
    · subst hn
      rw [if_neg (by simp), show BitVec.ofNat 8 0 = (0 : U8) from rfl, z, bxor_zero]
    · rw [if_pos hn, show n >>> 1 = n / 2 by rw [Nat.shiftRight_eq_div_pow]]
      rw [ih (n / 2) _ _ (by omega) (by omega) (by rw [gmul_comm, gmul_zero_left]), double_eq]
      have e := byte_halve ⟨n, h8⟩
      simp only at e
      rw [e, gmul_add_right, ← gmul_assoc, gmul_comm p 2]
      by_cases hb : (n &&& 1) ≠ 0
      · rw [if_pos hb, if_pos hb, gmul_one_right, BitVec.xor_assoc]
      · rw [if_neg hb, if_neg hb, z, bzero_xor]

theorem mul_gmul (b c : U8) : mul b c.toNat = gmul b c := by
  have := c.isLt
  rw [mul, mulLoop_gmul 64 c.toNat b 0 (by omega) (by omega), bzero_xor, BitVec.ofNat_toNat, BitVec.setWidth_eq]

end Verif.Aes
