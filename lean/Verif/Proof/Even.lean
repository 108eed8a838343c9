import Verif.Spec.Even
import Verif.Proof.Aes
import Verif.Proof.WideTrail
import Verif.Proof.Trail

/-! AES is an even permutation of the blocks: every step acts on parts of the state, independently of the rest. -/

namespace Verif.Even
open Equiv Equiv.Perm Spec.Aes Verif.Aes Verif.WideTrail

section
variable {A B : Type} [Fintype A] [Fintype B]

theorem pow_card (u : ℤˣ) (h : _root_.Even (Fintype.card A)) : ∏ _a : A, u = 1 := by
  rw [Finset.prod_const, Finset.card_univ]
  obtain ⟨m, hm⟩ := h
  rw [hm, ← two_mul, pow_mul, Int.units_sq, one_pow]

theorem even_pi (n : Nat) (hn : n ≠ 0) (hA : _root_.Even (Fintype.card A)) : _root_.Even (Fintype.card (Fin n → A)) := by
  rw [Fintype.card_fun, Fintype.card_fin]
  exact hA.pow_of_ne_zero hn

variable [DecidableEq A] [DecidableEq B]

/-- A permutation that acts on two parts independently, each of which has an even number of values. -/
theorem sign_prod (hA : _root_.Even (Fintype.card A)) (hB : _root_.Even (Fintype.card B)) (f : Perm (A × B)) (σ : Perm A) (τ : Perm B)
    (h : ∀ x, f x = (σ x.1, τ x.2)) : sign f = 1 := by
  have : f = prodCongrRight (fun _ : A => τ) * prodCongrLeft (fun _ : B => σ) := by
    ext x <;> rw [h] <;> rfl
  rw [this, sign_mul, sign_prodCongrRight, sign_prodCongrLeft, pow_card _ hA, pow_card _ hB, one_mul]

/-- A permutation that acts on each of four parts independently. -/
theorem sign_parts (hA : _root_.Even (Fintype.card A)) (f : Perm (Fin 4 → A)) (g : Fin 4 → Perm A) (h : ∀ s i, f s i = g i (s i)) :
    sign f = 1 := by
  rw [← sign_permCongr (Fin.consEquiv (fun _ : Fin 4 => A)).symm f]
  refine sign_prod hA (even_pi 3 (by decide) hA) _ (g 0) (Equiv.piCongrRight fun i : Fin 3 => g i.succ) fun x => ?_
  ext i
  · exact h _ 0
  · exact h _ _

end

theorem even_row : _root_.Even (Fintype.card (Fin 4 → Spec.Byte)) :=
  even_pi 4 (by decide) (by rw [Trail.card_byte]; decide)

/-! ### The steps -/

def subPerm : Perm State := ⟨subBytes, invSubBytes, invSub_sub, sub_invSub⟩

theorem sign_sub : sign subPerm = 1 :=
  sign_parts even_row _ (fun _ => Equiv.piCongrRight fun _ => ⟨sbox, invSbox, invSbox_sbox, sbox_invSbox⟩) fun _ _ => rfl

def shiftPerm : Perm State := ⟨shiftRows, invShiftRows, invShift_shift, shift_invShift⟩

theorem sign_shift : sign shiftPerm = 1 :=
  sign_parts even_row _ (fun r => ⟨fun x c => x (c + r), fun x c => x (c - r),
    fun x => by funext c; show x (c - r + r) = x c; rw [show c - r + r = c by omega],
    fun x => by funext c; show x (c + r - r) = x c; rw [show c + r - r = c by omega]⟩) fun _ _ => rfl

def keyPerm (k : State) : Perm State :=
  ⟨fun s => xorState s k, fun s => xorState s k, fun s => by funext r c; simp [xorState, BitVec.xor_assoc],
    fun s => by funext r c; simp [xorState, BitVec.xor_assoc]⟩

theorem sign_key (k : State) : sign (keyPerm k) = 1 :=
  sign_parts even_row _ (fun r => ⟨fun x c => x c ^^^ k r c, fun x c => x c ^^^ k r c,
    fun x => by funext c; simp [BitVec.xor_assoc], fun x => by funext c; simp [BitVec.xor_assoc]⟩) fun _ _ => rfl

def mixPerm : Perm State := ⟨mixColumns, invMixColumns, invMix_mix, mix_invMix⟩

theorem sign_mix : sign mixPerm = 1 := by
  rw [← sign_permCongr (Equiv.piComm fun _ _ : Fin 4 => Spec.Byte) mixPerm]
  exact sign_parts even_row _ (fun _ => ⟨mixCol, invMixCol, invMixCol_mixCol, mixCol_invMixCol⟩) fun _ _ => rfl

/-! ### All the rounds -/

theorem sign_before (k : Nat → State) (n : Nat) : ∃ f : Perm State, (∀ s, f s = before k s n) ∧ sign f = 1 := by
  induction n with
  | zero => exact ⟨keyPerm (k 0), fun _ => rfl, sign_key _⟩
  | succ n ih =>
    obtain ⟨f, h, hs⟩ := ih
    refine ⟨keyPerm (k (n + 1)) * (mixPerm * (shiftPerm * (subPerm * f))), fun s => ?_, ?_⟩
    · simp only [Perm.mul_apply, h]
      rfl
    · simp only [sign_mul, sign_key, sign_mix, sign_shift, sign_sub, hs, mul_one]

theorem sign_ciphertext (n : Nat) (k : Nat → State) (last : State) :
    ∃ f : Perm State, (∀ s, f s = ciphertext n k last s) ∧ sign f = 1 := by
  obtain ⟨f, h, hs⟩ := sign_before k n
  refine ⟨keyPerm last * (shiftPerm * (subPerm * f)), fun s => ?_, ?_⟩
  · simp only [Perm.mul_apply, h]
    rfl
  · simp only [sign_mul, sign_key, sign_shift, sign_sub, hs, mul_one]

/-- Blocks and states. -/
def stateEquiv : Block16 ≃ State where
  toFun b := load b.toList
  invFun s := ⟨(store s).toArray, by simp [store]⟩
  left_inv b := by
    apply Vector.toList_inj.mp
    rw [← store_load b]
    simp [Vector.toList]
  right_inv s := by
    rw [← load_store s]
    simp [Vector.toList, load_store]

/-- A permutation of the blocks that is AES of the states is even. -/
theorem even_block (n : Nat) (k : Nat → State) (last : State) (f : Perm Block16)
    (h : ∀ b, load (f b).toList = ciphertext n k last (load b.toList)) : Spec.Aes.Even f := by
  obtain ⟨g, hg, hs⟩ := sign_ciphertext n k last
  rw [Spec.Aes.Even, ← hs]
  refine sign_eq_sign_of_equiv _ _ stateEquiv fun b => ?_
  rw [hg]
  exact h b

end Verif.Even
