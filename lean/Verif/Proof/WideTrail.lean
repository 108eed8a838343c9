import Verif.Proof.Aes
import Mathlib.Algebra.BigOperators.Fin
import Mathlib.Algebra.Order.BigOperators.Group.Finset
import Mathlib.Algebra.Group.Fin.Basic
import Mathlib.Data.Fintype.Pi
import Mathlib.Data.Fintype.BigOperators

/-!
How differences spread through the rounds of AES (the specification of `Verif/Spec/Aes.lean`).

Two different columns differ in at least five places before and after `mixColumns` together. `shiftRows` sends the bytes of a column to
four different columns. So two states that differ have at least 25 differing bytes among the states before four rounds.
-/

namespace Verif.WideTrail
open Verif Verif.Aes Spec.Aes

/-! ### One column -/

theorem gmul_zero_right (a : Spec.Byte) : gmul a 0 = 0 := by rw [gmul_comm, gmul_zero_left]
theorem gmul_zero_right' (a : Spec.Byte) : gmul a 0#8 = 0#8 := gmul_zero_right a
theorem gmul_one_left' (a : Spec.Byte) : gmul 1#8 a = a := gmul_one_left a

theorem gmul_eq_zero {a b : Spec.Byte} (ha : a ≠ 0) (h : gmul a b = 0) : b = 0 := by
  have := congrArg (gmul (ginv a)) h
  rwa [← gmul_assoc, gmul_comm (ginv a) a, ginv_spec a ha, gmul_one_left, gmul_zero_right] at this

theorem xor_eq_zero {a b : Spec.Byte} : a ^^^ b = 0 ↔ a = b := by
  constructor
  · intro h
    have := congrArg (· ^^^ b) h
    simpa [BitVec.xor_assoc] using this
  · rintro rfl
    simp

/-- The coefficients of `mixColumns`. -/
def coef (i j : Fin 4) : Spec.Byte := if j = i then 2 else if j = i + 1 then 3 else 1

/-- The coefficients of `invMixColumns`. -/
def invCoef (i j : Fin 4) : Spec.Byte := if j = i then 0x0e else if j = i + 1 then 0x0b else if j = i + 2 then 0x0d else 0x09

/-- `mixColumns` on a column. -/
def mixCol (x : Fin 4 → Spec.Byte) (i : Fin 4) : Spec.Byte :=
  gmul 0x02 (x i) ^^^ gmul 0x03 (x (i + 1)) ^^^ x (i + 2) ^^^ x (i + 3)

def invMixCol (x : Fin 4 → Spec.Byte) (i : Fin 4) : Spec.Byte :=
  gmul 0x0e (x i) ^^^ gmul 0x0b (x (i + 1)) ^^^ gmul 0x0d (x (i + 2)) ^^^ gmul 0x09 (x (i + 3))

theorem invMixCol_mixCol (x : Fin 4 → Spec.Byte) : invMixCol (mixCol x) = x := by
  have := invMix_mix fun r _ => x r
  funext r
  exact congrFun (congrFun this r) 0

theorem mixCol_invMixCol (x : Fin 4 → Spec.Byte) : mixCol (invMixCol x) = x := by
  have := mix_invMix fun r _ => x r
  funext r
  exact congrFun (congrFun this r) 0

theorem mixCol_zero : mixCol (fun _ => 0) = fun _ => 0 := by
  funext i
  simp [mixCol, gmul_zero_right']

theorem invMixCol_zero : invMixCol (fun _ => 0) = fun _ => 0 := by
  funext i
  simp [invMixCol, gmul_zero_right']

theorem mixCol_xor (x y : Fin 4 → Spec.Byte) (i : Fin 4) : mixCol (fun j => x j ^^^ y j) i = mixCol x i ^^^ mixCol y i := by
  simp only [mixCol, gmul_add_right]
  simp only [bxor_comm, bxor_left_comm, BitVec.xor_assoc]

theorem invMixCol_xor (x y : Fin 4 → Spec.Byte) (i : Fin 4) :
    invMixCol (fun j => x j ^^^ y j) i = invMixCol x i ^^^ invMixCol y i := by
  simp only [invMixCol, gmul_add_right]
  simp only [bxor_comm, bxor_left_comm, BitVec.xor_assoc]

/-- A column with two places only. -/
theorem mixCol_two {x : Fin 4 → Spec.Byte} (j k : Fin 4) (hjk : j ≠ k) (h : ∀ l, l ≠ j → l ≠ k → x l = 0) (i : Fin 4) :
    mixCol x i = gmul (coef i j) (x j) ^^^ gmul (coef i k) (x k) := by
  revert hjk h i
  revert k
  refine forall_fin4 (P := fun j => ∀ k, j ≠ k → (∀ l, l ≠ j → l ≠ k → x l = 0) → ∀ i,
    mixCol x i = gmul (coef i j) (x j) ^^^ gmul (coef i k) (x k)) ?_ ?_ ?_ ?_ j <;> refine forall_fin4 ?_ ?_ ?_ ?_ <;> intro hjk h
  all_goals first | exact absurd rfl hjk | skip
  all_goals
    have h0 := h 0
    have h1 := h 1
    have h2 := h 2
    have h3 := h 3
    simp at h0 h1 h2 h3
  all_goals refine forall_fin4 ?_ ?_ ?_ ?_
  all_goals simp [mixCol, coef, *, gmul_zero_right', gmul_one_left', show (1 : Fin 4) + 1 = 2 from rfl,
    show (1 : Fin 4) + 2 = 3 from rfl, show (1 : Fin 4) + 3 = 0 from rfl, show (2 : Fin 4) + 1 = 3 from rfl,
    show (2 : Fin 4) + 2 = 0 from rfl, show (2 : Fin 4) + 3 = 1 from rfl, show (3 : Fin 4) + 1 = 0 from rfl,
    show (3 : Fin 4) + 2 = 1 from rfl, show (3 : Fin 4) + 3 = 2 from rfl, bxor_comm]

/-- A column with one place only, the other way. -/
theorem invMixCol_one {x : Fin 4 → Spec.Byte} {j : Fin 4} (h : ∀ l, l ≠ j → x l = 0) (i : Fin 4) :
    invMixCol x i = gmul (invCoef i j) (x j) := by
  revert h i
  refine forall_fin4 (P := fun j => (∀ l, l ≠ j → x l = 0) → ∀ i, invMixCol x i = gmul (invCoef i j) (x j)) ?_ ?_ ?_ ?_ j <;> intro h
  all_goals
    have h0 := h 0
    have h1 := h 1
    have h2 := h 2
    have h3 := h 3
    simp at h0 h1 h2 h3
  all_goals refine forall_fin4 ?_ ?_ ?_ ?_
  all_goals simp [invMixCol, invCoef, *, gmul_zero_right', show (1 : Fin 4) + 1 = 2 from rfl,
    show (1 : Fin 4) + 2 = 3 from rfl, show (1 : Fin 4) + 3 = 0 from rfl, show (2 : Fin 4) + 1 = 3 from rfl,
    show (2 : Fin 4) + 2 = 0 from rfl, show (2 : Fin 4) + 3 = 1 from rfl, show (3 : Fin 4) + 1 = 0 from rfl,
    show (3 : Fin 4) + 2 = 1 from rfl, show (3 : Fin 4) + 3 = 2 from rfl]

theorem coef_ne : ∀ i j : Fin 4, coef i j ≠ 0 := by decide
theorem invCoef_ne : ∀ i j : Fin 4, invCoef i j ≠ 0 := by decide

/-- The minors of two rows and two columns are not zero. -/
theorem minor_ne : ∀ i i' j k : Fin 4, i ≠ i' → j ≠ k →
    gmul (coef i' k) (coef i j) ^^^ gmul (coef i k) (coef i' j) ≠ 0 := by decide +kernel

theorem two_two {x : Fin 4 → Spec.Byte} {i i' j k : Fin 4} (hi : i ≠ i') (hjk : j ≠ k) (h : ∀ l, l ≠ j → l ≠ k → x l = 0)
    (h1 : mixCol x i = 0) (h2 : mixCol x i' = 0) : ∀ l, x l = 0 := by
  rw [mixCol_two j k hjk h, xor_eq_zero] at h1 h2
  have hj : x j = 0 := by
    refine gmul_eq_zero (minor_ne i i' j k hi hjk) ?_
    rw [gmul_add_left, gmul_assoc, gmul_assoc, h1, h2, ← gmul_assoc, ← gmul_assoc, gmul_comm (coef i' k) (coef i k), xor_eq_zero]
  have hk : x k = 0 := by
    rw [hj, gmul_zero_right] at h1
    exact gmul_eq_zero (coef_ne i k) h1.symm
  intro l
  by_cases hlj : l = j
  · rw [hlj, hj]
  · by_cases hlk : l = k
    · rw [hlk, hk]
    · exact h l hlj hlk

theorem one_one {x : Fin 4 → Spec.Byte} {i j : Fin 4} (h : ∀ l, l ≠ j → x l = 0) (h1 : mixCol x i = 0) : x j = 0 := by
  have hne : j ≠ j + 1 := (by decide : ∀ j : Fin 4, j ≠ j + 1) j
  rw [mixCol_two _ _ hne (fun l hl _ => h l hl), h (j + 1) hne.symm, gmul_zero_right, xor_eq_zero] at h1
  exact gmul_eq_zero (coef_ne i j) h1

theorem one_one' {x : Fin 4 → Spec.Byte} {i j : Fin 4} (h : ∀ l, l ≠ j → mixCol x l = 0) (h1 : x i = 0) : mixCol x j = 0 := by
  have := invMixCol_one h i
  rw [invMixCol_mixCol, h1] at this
  exact gmul_eq_zero (invCoef_ne i j) this.symm

theorem all_zero {x : Fin 4 → Spec.Byte} (h : ∀ l, mixCol x l = 0) (i : Fin 4) : x i = 0 := by
  rw [← invMixCol_mixCol x, show mixCol x = fun _ => 0 from funext h, invMixCol_zero]

/-- Rules for the zeros before and after. -/
def Rules (b c : Fin 4 → Bool) : Prop :=
  (∀ i i' j k : Fin 4, i ≠ i' → j ≠ k → (∀ l, l ≠ j → l ≠ k → b l = true) → c i = true → c i' = true → ∀ l, b l = true) ∧
  (∀ i j : Fin 4, (∀ l, l ≠ j → b l = true) → c i = true → b j = true) ∧
  (∀ i j : Fin 4, (∀ l, l ≠ j → c l = true) → b i = true → c j = true) ∧
  ((∀ l, c l = true) → ∀ i, b i = true) ∧ ∃ l, b l = false

instance (b c : Fin 4 → Bool) : Decidable (Rules b c) := by
  unfold Rules
  infer_instance

/-- Patterns of zeros that obey these rules have at most three zeros. -/
theorem zeros : ∀ b c : Fin 4 → Bool, Rules b c →
    5 ≤ (Finset.univ.filter fun l => b l = false).card + (Finset.univ.filter fun l => c l = false).card := by
  decide +kernel

/-- The branch number of `mixColumns` is five. -/
theorem branch_col (x : Fin 4 → Spec.Byte) (h : ∃ l, x l ≠ 0) :
    5 ≤ (Finset.univ.filter fun l => x l ≠ 0).card + (Finset.univ.filter fun l => mixCol x l ≠ 0).card := by
  have := zeros (fun l => decide (x l = 0)) (fun l => decide (mixCol x l = 0))
    ⟨fun i i' j k hi hj hl a b => by
      simp only [decide_eq_true_eq] at *
      exact two_two hi hj hl a b,
    fun i j hl a => by
      simp only [decide_eq_true_eq] at *
      exact one_one hl a,
    fun i j hl a => by
      simp only [decide_eq_true_eq] at *
      exact one_one' hl a,
    fun hl i => by
      simp only [decide_eq_true_eq] at *
      exact all_zero hl i,
    by simpa using h⟩
  simpa using this

/-! ### Patterns of differences -/

/-- Where two states differ. -/
abbrev Pattern := Fin 4 → Fin 4 → Bool

def diff (s t : State) : Pattern := fun r c => s r c != t r c

/-- The number of differing bytes in a column. -/
def inCol (P : Pattern) (c : Fin 4) : Nat := (Finset.univ.filter fun r => P r c = true).card

/-- The number of columns with differing bytes. -/
def cols (P : Pattern) : Nat := (Finset.univ.filter fun c => ∃ r, P r c = true).card

/-- The number of differing bytes. -/
def weight (P : Pattern) : Nat := ∑ c, inCol P c

/-- What a mixing of columns does. -/
def Mixes (P Q : Pattern) : Prop := ∀ c, (∃ r, P r c = true) ∨ (∃ r, Q r c = true) → 5 ≤ inCol P c + inCol Q c

/-- A cyclic shift of the rows by different amounts. -/
structure Shift where
  row : Fin 4 → Fin 4 ≃ Fin 4
  apart : ∀ c, Function.Injective fun r => row r c
  apart' : ∀ c, Function.Injective fun r => (row r).symm c

def Shift.pat (σ : Shift) (P : Pattern) : Pattern := fun r c => P r (σ.row r c)

theorem weight_eq (P : Pattern) : weight P = ∑ r, ∑ c, if P r c = true then 1 else 0 := by
  rw [Finset.sum_comm]
  simp only [weight, inCol, Finset.card_filter]

theorem Shift.weight (σ : Shift) (P : Pattern) : WideTrail.weight (σ.pat P) = WideTrail.weight P := by
  rw [weight_eq, weight_eq]
  refine Finset.sum_congr rfl fun r _ => ?_
  exact Equiv.sum_comp (σ.row r) fun c => if P r c = true then 1 else 0

theorem Mixes.cols {P Q : Pattern} (h : Mixes P Q) : WideTrail.cols P = WideTrail.cols Q := by
  have key (c) : (∃ r, P r c = true) ↔ ∃ r, Q r c = true := by
    have card_le (P : Pattern) : inCol P c ≤ 4 := (Finset.card_le_univ _).trans (by simp)
    have pos (P : Pattern) (hp : 0 < inCol P c) : ∃ r, P r c = true := by
      obtain ⟨r, hr⟩ := Finset.card_pos.1 hp
      exact ⟨r, by simpa using hr⟩
    constructor
    · intro hp
      have := h c (.inl hp)
      exact pos Q (by have := card_le P; omega)
    · intro hp
      have := h c (.inr hp)
      exact pos P (by have := card_le Q; omega)
  simp only [WideTrail.cols, key]

theorem Mixes.weight {P Q : Pattern} (h : Mixes P Q) : 5 * WideTrail.cols P ≤ weight P + weight Q := by
  rw [WideTrail.weight, WideTrail.weight, ← Finset.sum_add_distrib, WideTrail.cols, Finset.card_filter, Finset.mul_sum]
  refine Finset.sum_le_sum fun c _ => ?_
  split
  · next hp => exact h c (.inl hp)
  · omega

theorem spread_in (σ : Shift) (P : Pattern) (c : Fin 4) : inCol (σ.pat P) c ≤ cols P := by
  refine Finset.card_le_card_of_injOn (fun r => σ.row r c) (fun r hr => ?_) fun a _ b _ h => σ.apart c h
  simp only [Finset.coe_filter, Finset.mem_univ, true_and, Set.mem_ofPred_eq] at hr ⊢
  exact ⟨r, hr⟩

theorem spread_out (σ : Shift) (P : Pattern) (c : Fin 4) : inCol P c ≤ cols (σ.pat P) := by
  refine Finset.card_le_card_of_injOn (fun r => (σ.row r).symm c) (fun r hr => ?_) fun a _ b _ h => σ.apart' c h
  simp only [Finset.coe_filter, Finset.mem_univ, true_and, Set.mem_ofPred_eq] at hr ⊢
  exact ⟨r, by simpa [Shift.pat] using hr⟩

theorem pat_nonzero (σ : Shift) {P : Pattern} (h : ∃ r c, P r c = true) : ∃ c r, σ.pat P r c = true := by
  obtain ⟨r, c, h⟩ := h
  exact ⟨(σ.row r).symm c, r, by simpa [Shift.pat] using h⟩

/-- Two rounds. -/
theorem two_rounds (σ : Shift) {P Q : Pattern} (h : ∃ r c, P r c = true) (m : Mixes (σ.pat P) Q) : 5 ≤ weight P + weight Q := by
  have h1 := m.weight
  rw [σ.weight] at h1
  obtain ⟨c, hc⟩ := pat_nonzero σ h
  have : 0 < cols (σ.pat P) := Finset.card_pos.2 ⟨c, by simpa using hc⟩
  omega

/-- Four rounds. -/
theorem four_rounds (σ : Shift) {P0 P1 P2 P3 : Pattern} (h : ∃ r c, P1 r c = true) (m0 : Mixes (σ.pat P0) P1)
    (m1 : Mixes (σ.pat P1) P2) (m2 : Mixes (σ.pat P2) P3) : 25 ≤ weight P0 + weight P1 + weight P2 + weight P3 := by
  have h0 := m0.weight
  have h2 := m2.weight
  rw [σ.weight] at h0 h2
  rw [m0.cols] at h0
  obtain ⟨c, hc⟩ := pat_nonzero σ h
  have h1 := m1 c (.inl hc)
  have a := spread_in σ P1 c
  have b := spread_out σ P2 c
  omega

/-- A single differing byte: four bytes differ after one round, all 16 after two. -/
theorem one_byte (σ : Shift) {P0 P1 P2 : Pattern} (h : weight P0 = 1) (m0 : Mixes (σ.pat P0) P1)
    (m1 : Mixes (σ.pat P1) P2) : weight P1 = 4 ∧ weight P2 = 16 := by
  have full {Q : Pattern} {c : Fin 4} (hq : inCol Q c = 4) (r : Fin 4) : Q r c = true := by
    have : (Finset.univ.filter fun r => Q r c = true) = Finset.univ := Finset.eq_univ_of_card _ (by rw [← inCol, hq]; rfl)
    have hr : r ∈ Finset.univ.filter fun r => Q r c = true := by rw [this]; exact Finset.mem_univ r
    simpa using hr
  have le4 (Q : Pattern) (c : Fin 4) : inCol Q c ≤ 4 := (Finset.card_le_univ _).trans (by simp)
  have h0 : weight (σ.pat P0) = 1 := by rw [σ.weight, h]
  -- the column of the differing byte
  obtain ⟨c, hc⟩ : ∃ c, ∃ r, σ.pat P0 r c = true := by
    by_contra hn
    push Not at hn
    have : weight (σ.pat P0) = 0 := by
      refine Finset.sum_eq_zero fun c _ => ?_
      rw [inCol, Finset.card_eq_zero, Finset.filter_eq_empty_iff]
      intro r _
      exact hn c r
    omega
  have hc1 : inCol (σ.pat P0) c ≤ 1 := by
    rw [← h0]
    exact Finset.single_le_sum (f := inCol (σ.pat P0)) (fun _ _ => Nat.zero_le _) (Finset.mem_univ c)
  have f1 : inCol P1 c = 4 := by
    have := m0 c (.inl hc)
    have := le4 P1 c
    omega
  have hP1 := full f1
  have hcols : cols P1 ≤ 1 := by
    have h5 := m0.cols
    have : cols (σ.pat P0) ≤ weight (σ.pat P0) := by
      rw [WideTrail.weight, cols, Finset.card_filter]
      refine Finset.sum_le_sum fun c _ => ?_
      split
      · next hp =>
        obtain ⟨r, hr⟩ := hp
        exact Finset.card_pos.2 ⟨r, by simpa using hr⟩
      · omega
    omega
  refine ⟨Nat.le_antisymm ?_ ?_, ?_⟩
  · have : weight P1 ≤ 4 * cols P1 := by
      rw [WideTrail.weight, cols, Finset.card_filter, Finset.mul_sum]
      refine Finset.sum_le_sum fun c _ => ?_
      split
      · exact le4 P1 c
      · next hn =>
        rw [inCol, Finset.card_eq_zero.2 (Finset.filter_eq_empty_iff.2 fun r _ hr => hn ⟨r, hr⟩)]
        omega
    omega
  · rw [← f1]
    exact Finset.single_le_sum (f := inCol P1) (fun _ _ => Nat.zero_le _) (Finset.mem_univ c)
  suffices h : ∀ c', inCol P2 c' = 4 by
    rw [WideTrail.weight, Finset.sum_congr rfl fun c _ => h c]
    simp
  intro c'
  have hin : 1 ≤ inCol (σ.pat P1) c' ∧ inCol (σ.pat P1) c' ≤ 1 := by
    refine ⟨?_, (spread_in σ P1 c').trans hcols⟩
    have hsur : Function.Surjective fun r => σ.row r c' := Finite.injective_iff_surjective.1 (σ.apart c')
    obtain ⟨r', hr'⟩ := hsur c
    refine Finset.card_pos.2 ⟨r', ?_⟩
    rw [Finset.mem_filter]
    refine ⟨Finset.mem_univ _, ?_⟩
    rw [Shift.pat, show σ.row r' c' = c from hr']
    exact hP1 r'
  have hex : ∃ r, σ.pat P1 r c' = true := by
    obtain ⟨r', hr'⟩ := Finset.card_pos.1 hin.1
    exact ⟨r', by simpa using hr'⟩
  have := m1 c' (.inl hex)
  have := le4 P2 c'
  omega

/-! ### The rounds of AES -/

/-- The shift of `shiftRows`. -/
def shift : Shift where
  row r := Equiv.addRight r
  apart c a b h := add_left_cancel (a := c) h
  apart' c a b h := by simpa [sub_eq_add_neg] using h

/-- The shift of `invShiftRows`. -/
def unshift : Shift where
  row r := (Equiv.addRight r).symm
  apart c a b h := by simpa [sub_eq_add_neg] using h
  apart' c a b h := add_left_cancel (a := c) h

theorem diff_sub (s t : State) : diff (subBytes s) (subBytes t) = diff s t := by
  funext r c
  refine Bool.eq_iff_iff.2 ?_
  simp only [diff, subBytes, bne_iff_ne]
  exact not_congr ⟨sbox_injective, fun h => by rw [h]⟩

theorem invSbox_injective {a b : Spec.Byte} (h : invSbox a = invSbox b) : a = b := by
  rw [← sbox_invSbox a, h, sbox_invSbox]

theorem diff_invSub (s t : State) : diff (invSubBytes s) (invSubBytes t) = diff s t := by
  funext r c
  refine Bool.eq_iff_iff.2 ?_
  simp only [diff, invSubBytes, bne_iff_ne]
  exact not_congr ⟨invSbox_injective, fun h => by rw [h]⟩

theorem diff_key (w : Nat → Word4) (k : Nat) (s t : State) : diff (addRoundKey w k s) (addRoundKey w k t) = diff s t := by
  funext r c
  refine Bool.eq_iff_iff.2 ?_
  simp only [diff, addRoundKey, bne_iff_ne]
  exact not_congr ⟨(BitVec.xor_left_inj _).1, fun h => by rw [h]⟩

theorem diff_shift (s t : State) : diff (shiftRows s) (shiftRows t) = shift.pat (diff s t) := rfl

theorem diff_unshift (s t : State) : diff (invShiftRows s) (invShiftRows t) = unshift.pat (diff s t) := by
  funext r c
  simp [diff, invShiftRows, Shift.pat, unshift, sub_eq_add_neg]

theorem diff_mix (s t : State) : Mixes (diff s t) (diff (mixColumns s) (mixColumns t)) := by
  intro c h
  have e1 (r) : diff s t r c = true ↔ s r c ^^^ t r c ≠ 0 := by simp [diff]
  have e2 (r) : diff (mixColumns s) (mixColumns t) r c = true ↔ mixCol (fun j => s j c ^^^ t j c) r ≠ 0 := by
    rw [mixCol_xor fun j => s j c]
    simp [diff, mixColumns, mixCol]
  have := branch_col (fun r => s r c ^^^ t r c) (by
    rcases h with ⟨r, hr⟩ | ⟨r, hr⟩
    · exact ⟨r, (e1 r).1 hr⟩
    · by_contra hn
      push Not at hn
      refine (e2 r).1 hr ?_
      rw [show (fun j => s j c ^^^ t j c) = fun _ => 0 from funext hn, mixCol_zero])
  simpa only [inCol, e1, e2] using this

theorem Mixes.symm {P Q : Pattern} (h : Mixes P Q) : Mixes Q P := fun c hc => by
  rw [Nat.add_comm]
  exact h c hc.symm

theorem diff_invMix (s t : State) : Mixes (diff s t) (diff (invMixColumns s) (invMixColumns t)) := by
  have := (diff_mix (invMixColumns s) (invMixColumns t)).symm
  rwa [mix_invMix, mix_invMix] at this

theorem diff_exists {s t : State} : (∃ r c, diff s t r c = true) ↔ s ≠ t := by
  constructor
  · rintro ⟨r, c, h⟩ rfl
    simp [diff] at h
  · intro h
    by_contra hn
    push Not at hn
    exact h (funext fun r => funext fun c => by simpa [diff] using hn r c)

/-- One round. -/
theorem diff_round (w : Nat → Word4) (k : Nat) (s t : State) :
    Mixes (shift.pat (diff s t)) (diff (addRoundKey w k (mixColumns (shiftRows (subBytes s))))
      (addRoundKey w k (mixColumns (shiftRows (subBytes t))))) := by
  rw [diff_key, ← diff_sub, ← diff_shift]
  exact diff_mix _ _

theorem diff_invRound (w : Nat → Word4) (k : Nat) (s t : State) :
    Mixes (unshift.pat (diff s t)) (diff (invMixColumns (addRoundKey w k (invSubBytes (invShiftRows s))))
      (invMixColumns (addRoundKey w k (invSubBytes (invShiftRows t))))) := by
  rw [← diff_unshift, ← diff_invSub, ← diff_key w k]
  exact diff_invMix _ _

end Verif.WideTrail
