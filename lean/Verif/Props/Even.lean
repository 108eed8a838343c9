import Verif.Props.Linear
import Verif.Proof.Even

/-! Property C121: with every key, AES exchanges blocks in an even way. -/

namespace Verif.Props.Even
open Verif Verif.Aes Verif.Even Verif.Props.Linear Spec.Aes Equiv.Perm

/-- The permutation of the blocks that belongs to AES with given round keys. -/
theorem exists_perm (n : Nat) (k : Nat → State) (last : State) : ∃ f : Equiv.Perm Block16, Spec.Aes.Even f ∧
    ∀ b, load (f b).toList = ciphertext n k last (load b.toList) := by
  obtain ⟨g, hg, _⟩ := sign_ciphertext n k last
  have h (b : Block16) : load (stateEquiv.symm.permCongr g b).toList = ciphertext n k last (load b.toList) := by
    show stateEquiv (stateEquiv.symm (g (stateEquiv b))) = _
    rw [Equiv.apply_symm_apply, hg]
    rfl
  exact ⟨_, even_block n k last _ h, h⟩

/-- Two even permutations that are different differ in three places. -/
theorem three_differ {X : Type} [Fintype X] [DecidableEq X] (f g : Equiv.Perm X) (sf : sign f = 1) (sg : sign g = 1) (p : X)
    (hp : f p ≠ g p) : ∃ q r : X, p ≠ q ∧ p ≠ r ∧ q ≠ r ∧ f q ≠ g q ∧ f r ≠ g r := by
  have e (x : X) : f x ≠ g x ↔ x ∈ (g⁻¹ * f).support := by
    rw [mem_support, mul_apply, Ne, Ne, inv_eq_iff_eq]
  have hs : sign (g⁻¹ * f) = 1 := by
    rw [Equiv.Perm.sign_mul, Equiv.Perm.sign_inv, sf, sg, mul_one]
  have hm := (e p).mp hp
  have h3 : 2 < (g⁻¹ * f).support.card := by
    have h2 : 2 ≤ (g⁻¹ * f).support.card := two_le_card_support_of_ne_one fun e => by
      rw [e] at hm
      simp at hm
    refine lt_of_le_of_ne h2 fun e => ?_
    have := (card_support_eq_two.mp e.symm).sign_eq
    rw [hs] at this
    exact absurd this (by decide)
  have h2 : 1 < ((g⁻¹ * f).support.erase p).card := by
    rw [Finset.card_erase_of_mem hm]
    omega
  obtain ⟨q, hq, r, hr, hqr⟩ := Finset.one_lt_card.mp h2
  rw [Finset.mem_erase] at hq hr
  exact ⟨q, r, hq.1.symm, hr.1.symm, hqr, (e q).mpr hq.2, (e r).mpr hr.2⟩

theorem half_even {X : Type} [Fintype X] [DecidableEq X] [Nontrivial X] (P : Equiv.Perm X → Prop) [DecidablePred P]
    (hP : ∀ f, P f ↔ sign f = 1) : 2 * (Finset.univ.filter P).card = Fintype.card (Equiv.Perm X) := by
  rw [← Nat.card_eq_fintype_card, ← two_mul_nat_card_alternatingGroup (α := X)]
  congr 1
  rw [Nat.card_eq_fintype_card, ← Fintype.card_subtype]
  exact Fintype.card_congr (Equiv.subtypeEquivRight fun f => (hP f).trans Equiv.Perm.mem_alternatingGroup.symm)

/-- **C121.** After a successful `init`, whatever the key is, `encrypt` is an even permutation of the blocks, and `decrypt` its
inverse. -/
theorem C121_even (T : Target) (self self' : AES) (key : List U8) (h : self.init T key = .ok (self', .ok ())) :
    ∃ f : Equiv.Perm Block16, (∀ b, self'.encrypt b = .ok (.ok (f b))) ∧ (∀ b, self'.decrypt b = .ok (.ok (f.symm b))) ∧
      Spec.Aes.Even f := by
  obtain ⟨f, he, hf⟩ := exists_perm (key.length / 4 + 5) (roundKey key) (roundKey key (key.length / 4 + 6))
  have henc (b : Block16) : self'.encrypt b = .ok (.ok (f b)) := by
    obtain ⟨o, h1, h2⟩ := C119_keys T self self' key h b
    rw [h1]
    rw [show o = f b from stateEquiv.injective (h2.trans (hf b).symm)]
  refine ⟨f, henc, fun b => ?_, he⟩
  obtain ⟨o, h1, h2⟩ := Props.Aes.C24_decrypt_encrypt T self self' key h (f.symm b)
  rw [henc, Equiv.apply_symm_apply] at h1
  have e : b = o := Except.ok.inj (Except.ok.inj h1)
  rwa [← e] at h2

/-- **C121.** The same is true of what the program text does, for all round keys, whether they come from a key or not. -/
theorem C121_program (T : Target) (fuel depth : Nat) (hf : 65 ≤ fuel) (hd : 5 ≤ depth) (n : Nat) (hn : n = 10 ∨ n = 12 ∨ n = 14)
    (k : Fin n → State) (last : State) :
    ∃ f : Equiv.Perm Block16, (∀ p, Encrypts T fuel depth k last p (f p)) ∧ Spec.Aes.Even f := by
  obtain ⟨F, rfl⟩ := Nat.exists_eq_add_of_le' hf
  obtain ⟨d, rfl⟩ := Nat.exists_eq_add_of_le' hd
  obtain ⟨m, rfl⟩ : ∃ m, n = m + 1 := ⟨n - 1, by omega⟩
  obtain ⟨f, he, hf⟩ := exists_perm m (fun j => k (Fin.ofNat (m + 1) j)) last
  refine ⟨f, fun p => ?_, he⟩
  obtain ⟨c, h1, h2⟩ := encrypts_iff T F d m (by omega) k last p
  rwa [show f p = c from stateEquiv.injective ((hf p).trans h2.symm)]

open Classical in
/-- **C121.** Only half of the permutations of the blocks are even: the other half is not AES with any key. -/
theorem C121_half : 2 * (Finset.univ.filter fun f : Equiv.Perm Block16 => Spec.Aes.Even f).card = Fintype.card (Equiv.Perm Block16) := by
  have : Nontrivial Block16 := ⟨Vector.replicate 16 0, Vector.replicate 16 1, fun e => absurd (congrArg (fun b : Block16 => b[0]) e) (by simp)⟩
  exact half_even _ fun _ => Iff.rfl

/-- **C121.** So two keys, of the same length or not, never differ in one or two blocks only: when some block is encrypted differently
with them, then at least three blocks are. In other words, when the encryptions of all blocks but two are known, these two are known
as well. -/
theorem C121_three (T : Target) (a a' b b' : AES) (key key' : List U8) (ha : a.init T key = .ok (a', .ok ()))
    (hb : b.init T key' = .ok (b', .ok ())) (p : Block16) (hp : a'.encrypt p ≠ b'.encrypt p) :
    ∃ q r : Block16, p ≠ q ∧ p ≠ r ∧ q ≠ r ∧ a'.encrypt q ≠ b'.encrypt q ∧ a'.encrypt r ≠ b'.encrypt r := by
  obtain ⟨f, hf, _, sf⟩ := C121_even T a a' key ha
  obtain ⟨g, hg, _, sg⟩ := C121_even T b b' key' hb
  have e (x : Block16) : a'.encrypt x ≠ b'.encrypt x ↔ f x ≠ g x := by
    rw [hf, hg]
    exact not_congr ⟨fun h => Except.ok.inj (Except.ok.inj h), fun h => by rw [h]⟩
  obtain ⟨q, r, h1, h2, h3, h4, h5⟩ := three_differ f g sf sg p ((e p).mp hp)
  exact ⟨q, r, h1, h2, h3, (e q).mpr h4, (e r).mpr h5⟩

/-- What the model gives for the block of zeros. -/
def first (key : List U8) : Option U8 :=
  match AES.new.init ⟨.w64, true⟩ key with
  | .ok (a, .ok ()) => match a.encrypt (Vector.replicate 16 0) with
    | .ok (.ok b) => some b[0]
    | _ => none
  | _ => none

theorem first_differs : first (List.replicate 16 0) ≠ first (List.replicate 32 1) := by decide +kernel

/-- A key of 16 bytes and one of 32 that differ for the block of zeros, and so for two other blocks. -/
example : ∃ (a b : AES) (q r : Block16), AES.new.init ⟨.w64, true⟩ (List.replicate 16 0) = .ok (a, .ok ()) ∧
    AES.new.init ⟨.w64, true⟩ (List.replicate 32 1) = .ok (b, .ok ()) ∧ q ≠ r ∧ a.encrypt q ≠ b.encrypt q ∧
    a.encrypt r ≠ b.encrypt r := by
  obtain ⟨a, ha, _⟩ := Props.Aes.init_valid ⟨.w64, true⟩ AES.new (List.replicate 16 0) (by simp)
  obtain ⟨b, hb, _⟩ := Props.Aes.init_valid ⟨.w64, true⟩ AES.new (List.replicate 32 1) (by simp)
  have hd := first_differs
  obtain ⟨q, r, _, _, h3, h4, h5⟩ := C121_three ⟨.w64, true⟩ AES.new a AES.new b _ _ ha hb (Vector.replicate 16 0) (by
    intro e
    refine hd ?_
    simp only [first, ha, hb, e])
  exact ⟨a, b, q, r, ha, hb, h3, h4, h5⟩

end Verif.Props.Even
