import Verif.Proof.Aes
/-!
Which words of the AES key schedule determine the key. During the key expansion of FIPS-197 only some words go through the S-box;
the key can be computed back from those alone.
-/

namespace Verif.Aes
open Spec.Aes

/-- The steps of the key expansion that go through the S-box. -/
abbrev Special (nk i : Nat) : Prop := i % nk = 0 ∨ (nk > 6 ∧ i % nk = 4)

theorem recover4 (E : Nat → Prop) (h : ∀ i, 4 ≤ i → i < 44 → Special 4 i → E (i - 1))
    (a : ∀ i, 4 ≤ i → ¬ Special 4 i → E i → E (i - 4) → E (i - 1)) (b : ∀ i, 4 ≤ i → E i → E (i - 1) → E (i - 4)) :
    ∀ j, j < 4 → E j := by
  have e15 : E 15 := h 16 (by decide) (by decide) (by decide)
  have e11 : E 11 := h 12 (by decide) (by decide) (by decide)
  have e14 : E 14 := a 15 (by decide) (by decide) e15 e11
  have e7 : E 7 := h 8 (by decide) (by decide) (by decide)
  have e10 : E 10 := a 11 (by decide) (by decide) e11 e7
  have e13 : E 13 := a 14 (by decide) (by decide) e14 e10
  have e3 : E 3 := h 4 (by decide) (by decide) (by decide)
  have e6 : E 6 := a 7 (by decide) (by decide) e7 e3
  have e9 : E 9 := a 10 (by decide) (by decide) e10 e6
  have e12 : E 12 := a 13 (by decide) (by decide) e13 e9
  have e8 : E 8 := b 12 (by decide) e12 e11
  have e4 : E 4 := b 8 (by decide) e8 e7
  have e0 : E 0 := b 4 (by decide) e4 e3
  have e5 : E 5 := b 9 (by decide) e9 e8
  have e1 : E 1 := b 5 (by decide) e5 e4
  have e2 : E 2 := b 6 (by decide) e6 e5
  intro j hj
  match j, hj with
  | 0, _ => exact e0
  | 1, _ => exact e1
  | 2, _ => exact e2
  | 3, _ => exact e3

theorem recover6 (E : Nat → Prop) (h : ∀ i, 6 ≤ i → i < 52 → Special 6 i → E (i - 1))
    (a : ∀ i, 6 ≤ i → ¬ Special 6 i → E i → E (i - 6) → E (i - 1)) (b : ∀ i, 6 ≤ i → E i → E (i - 1) → E (i - 6)) :
    ∀ j, j < 6 → E j := by
  have e35 : E 35 := h 36 (by decide) (by decide) (by decide)
  have e29 : E 29 := h 30 (by decide) (by decide) (by decide)
  have e34 : E 34 := a 35 (by decide) (by decide) e35 e29
  have e23 : E 23 := h 24 (by decide) (by decide) (by decide)
  have e28 : E 28 := a 29 (by decide) (by decide) e29 e23
  have e33 : E 33 := a 34 (by decide) (by decide) e34 e28
  have e17 : E 17 := h 18 (by decide) (by decide) (by decide)
  have e22 : E 22 := a 23 (by decide) (by decide) e23 e17
  have e27 : E 27 := a 28 (by decide) (by decide) e28 e22
  have e32 : E 32 := a 33 (by decide) (by decide) e33 e27
  have e11 : E 11 := h 12 (by decide) (by decide) (by decide)
  have e16 : E 16 := a 17 (by decide) (by decide) e17 e11
  have e21 : E 21 := a 22 (by decide) (by decide) e22 e16
  have e26 : E 26 := a 27 (by decide) (by decide) e27 e21
  have e31 : E 31 := a 32 (by decide) (by decide) e32 e26
  have e5 : E 5 := h 6 (by decide) (by decide) (by decide)
  have e10 : E 10 := a 11 (by decide) (by decide) e11 e5
  have e15 : E 15 := a 16 (by decide) (by decide) e16 e10
  have e20 : E 20 := a 21 (by decide) (by decide) e21 e15
  have e25 : E 25 := a 26 (by decide) (by decide) e26 e20
  have e30 : E 30 := a 31 (by decide) (by decide) e31 e25
  have e24 : E 24 := b 30 (by decide) e30 e29
  have e18 : E 18 := b 24 (by decide) e24 e23
  have e12 : E 12 := b 18 (by decide) e18 e17
  have e6 : E 6 := b 12 (by decide) e12 e11
  have e0 : E 0 := b 6 (by decide) e6 e5
  have e19 : E 19 := b 25 (by decide) e25 e24
  have e13 : E 13 := b 19 (by decide) e19 e18
  have e7 : E 7 := b 13 (by decide) e13 e12
  have e1 : E 1 := b 7 (by decide) e7 e6
  have e14 : E 14 := b 20 (by decide) e20 e19
  have e8 : E 8 := b 14 (by decide) e14 e13
  have e2 : E 2 := b 8 (by decide) e8 e7
  have e9 : E 9 := b 15 (by decide) e15 e14
  have e3 : E 3 := b 9 (by decide) e9 e8
  have e4 : E 4 := b 10 (by decide) e10 e9
  intro j hj
  match j, hj with
  | 0, _ => exact e0
  | 1, _ => exact e1
  | 2, _ => exact e2
  | 3, _ => exact e3
  | 4, _ => exact e4
  | 5, _ => exact e5

theorem recover8 (E : Nat → Prop) (h : ∀ i, 8 ≤ i → i < 60 → Special 8 i → E (i - 1))
    (a : ∀ i, 8 ≤ i → ¬ Special 8 i → E i → E (i - 8) → E (i - 1)) (b : ∀ i, 8 ≤ i → E i → E (i - 1) → E (i - 8)) :
    ∀ j, j < 8 → E j := by
  have e35 : E 35 := h 36 (by decide) (by decide) (by decide)
  have e27 : E 27 := h 28 (by decide) (by decide) (by decide)
  have e34 : E 34 := a 35 (by decide) (by decide) e35 e27
  have e19 : E 19 := h 20 (by decide) (by decide) (by decide)
  have e26 : E 26 := a 27 (by decide) (by decide) e27 e19
  have e33 : E 33 := a 34 (by decide) (by decide) e34 e26
  have e11 : E 11 := h 12 (by decide) (by decide) (by decide)
  have e18 : E 18 := a 19 (by decide) (by decide) e19 e11
  have e25 : E 25 := a 26 (by decide) (by decide) e26 e18
  have e32 : E 32 := a 33 (by decide) (by decide) e33 e25
  have e31 : E 31 := h 32 (by decide) (by decide) (by decide)
  have e24 : E 24 := b 32 (by decide) e32 e31
  have e23 : E 23 := h 24 (by decide) (by decide) (by decide)
  have e16 : E 16 := b 24 (by decide) e24 e23
  have e15 : E 15 := h 16 (by decide) (by decide) (by decide)
  have e8 : E 8 := b 16 (by decide) e16 e15
  have e7 : E 7 := h 8 (by decide) (by decide) (by decide)
  have e0 : E 0 := b 8 (by decide) e8 e7
  have e17 : E 17 := b 25 (by decide) e25 e24
  have e9 : E 9 := b 17 (by decide) e17 e16
  have e1 : E 1 := b 9 (by decide) e9 e8
  have e10 : E 10 := b 18 (by decide) e18 e17
  have e2 : E 2 := b 10 (by decide) e10 e9
  have e3 : E 3 := b 11 (by decide) e11 e10
  have e30 : E 30 := a 31 (by decide) (by decide) e31 e23
  have e22 : E 22 := a 23 (by decide) (by decide) e23 e15
  have e29 : E 29 := a 30 (by decide) (by decide) e30 e22
  have e14 : E 14 := a 15 (by decide) (by decide) e15 e7
  have e21 : E 21 := a 22 (by decide) (by decide) e22 e14
  have e28 : E 28 := a 29 (by decide) (by decide) e29 e21
  have e20 : E 20 := b 28 (by decide) e28 e27
  have e12 : E 12 := b 20 (by decide) e20 e19
  have e4 : E 4 := b 12 (by decide) e12 e11
  have e13 : E 13 := b 21 (by decide) e21 e20
  have e5 : E 5 := b 13 (by decide) e13 e12
  have e6 : E 6 := b 14 (by decide) e14 e13
  intro j hj
  match j, hj with
  | 0, _ => exact e0
  | 1, _ => exact e1
  | 2, _ => exact e2
  | 3, _ => exact e3
  | 4, _ => exact e4
  | 5, _ => exact e5
  | 6, _ => exact e6
  | 7, _ => exact e7

theorem xorWord_left {a b c d : Word4} (h : xorWord a b = xorWord c d) (h' : b = d) : a = c := by
  subst h'
  funext r
  have := congrFun h r
  simpa [xorWord] using this
theorem xorWord_right {a b c d : Word4} (h : xorWord a b = xorWord c d) (h' : a = c) : b = d := by
  subst h'
  funext r
  have := congrFun h r
  simpa [xorWord] using this

/-- The words of the key schedule that go through the S-box determine the key. -/
theorem key_recovered (nk n : Nat) (hn : (nk, n) = (4, 44) ∨ (nk, n) = (6, 52) ∨ (nk, n) = (8, 60)) (k k' : List Spec.Byte)
    (hk : k.length = 4 * nk) (hk' : k'.length = 4 * nk)
    (h : ∀ i, nk ≤ i → i < n → Special nk i → keyWord nk k (i - 1) = keyWord nk k' (i - 1)) : k = k' := by
  have step (k : List Spec.Byte) (i : Nat) (hi : nk ≤ i) : keyWord nk k i = xorWord (keyWord nk k (i - nk))
      (if i % nk = 0 then xorWord (subWord (rotWord (keyWord nk k (i - 1)))) (rcon (i / nk))
       else if nk > 6 ∧ i % nk = 4 then subWord (keyWord nk k (i - 1)) else keyWord nk k (i - 1)) := by
    rw [keyWord, dif_neg (by rcases hn with h | h | h <;> cases h <;> omega)]
  have a (i : Nat) (hi : nk ≤ i) (hs : ¬ Special nk i) (h1 : keyWord nk k i = keyWord nk k' i)
      (h2 : keyWord nk k (i - nk) = keyWord nk k' (i - nk)) : keyWord nk k (i - 1) = keyWord nk k' (i - 1) := by
    rw [step k i hi, step k' i hi] at h1
    have := xorWord_right h1 h2
    simp only [Special, not_or] at hs
    simpa [hs.1, hs.2] using this
  have b (i : Nat) (hi : nk ≤ i) (h1 : keyWord nk k i = keyWord nk k' i)
      (h2 : keyWord nk k (i - 1) = keyWord nk k' (i - 1)) : keyWord nk k (i - nk) = keyWord nk k' (i - nk) := by
    rw [step k i hi, step k' i hi, h2] at h1
    exact xorWord_left h1 rfl
  have all : ∀ j, j < nk → keyWord nk k j = keyWord nk k' j := by
    rcases hn with hn | hn | hn <;> cases hn
    · exact recover4 (fun i => keyWord 4 k i = keyWord 4 k' i) h a b
    · exact recover6 (fun i => keyWord 6 k i = keyWord 6 k' i) h a b
    · exact recover8 (fun i => keyWord 8 k i = keyWord 8 k' i) h a b
  apply List.ext_getElem (by omega)
  intro j hj hj'
  have := congrFun (all (j / 4) (by omega)) ⟨j % 4, by omega⟩
  rw [keyWord, dif_pos (Or.inr (by omega)), keyWord, dif_pos (Or.inr (by omega))] at this
  simp only [Spec.byteAt] at this
  simpa [show 4 * (j / 4) + j % 4 = j by omega, hj, hj'] using this
end Verif.Aes
