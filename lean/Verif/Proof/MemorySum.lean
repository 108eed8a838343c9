import Mathlib.Analysis.Complex.ExponentialBounds
import Verif.Proof.TableMachine

/-!
Memory that is added up over time: when at all times before there was too little memory for the next evaluation to come soon, then there was much
memory in the end, if it is taken together.
-/

namespace Spec.TableMachine
open Spec Spec.Games Spec.TableGames

theorem harmonic (z x : Nat) (hz : 1 ≤ z) : Real.log (z + x) - Real.log z ≤ ∑ j ∈ Finset.range x, 1 / ((z : ℝ) + j) := by
  have hz0 : (0 : ℝ) < z := by exact_mod_cast hz
  induction x with
  | zero => simp
  | succ x ih =>
    have hp : (0 : ℝ) < z + x := by positivity
    have h1 := Real.log_le_sub_one_of_pos (show (0 : ℝ) < (z + x + 1) / (z + x) by positivity)
    rw [Real.log_div (by positivity) hp.ne', add_div, div_self hp.ne'] at h1
    rw [Finset.sum_range_succ]
    push_cast
    rw [← add_assoc]
    linarith

/-- A window of `x` steps, when the next evaluation comes `z - 1` steps after it. -/
theorem window (z x : Nat) (hz : 1 ≤ z) (hx : 1 ≤ x) :
    (Real.log 2 + Real.log (x + 1) - Real.log z) / 2 ≤ ∑ j ∈ Finset.range x, 1 / ((z : ℝ) + j) := by
  refine le_trans ?_ (harmonic z x hz)
  have hz0 : (0 : ℝ) < z := by exact_mod_cast hz
  have hx1 : (1 : ℝ) ≤ x := by exact_mod_cast hx
  have h1 : Real.log (2 * (x + 1) * z) ≤ Real.log ((z + x) ^ 2) := by
    refine Real.log_le_log (by positivity) ?_
    nlinarith [sq_nonneg ((z : ℝ) - x), mul_le_mul_of_nonneg_right hx1 hz0.le]
  rw [Real.log_mul (by positivity) hz0.ne', Real.log_mul (by norm_num) (by positivity), Real.log_pow] at h1
  push_cast at h1
  linarith

theorem cumulative {N n : Nat} {τ : Nat → Nat} (hτ : ∀ i < n, τ i < τ (i + 1)) {I : Finset Nat} {g : Nat → Nat}
    (hg : ∀ i ∈ I, ∀ r ≤ τ i, N ≤ 8 * g r * (τ (i + 1) - r + 1)) (k : Nat) (hk : k ≤ n) (hne : (I.filter (· < k)).Nonempty) :
    ∃ l ∈ I, l < k ∧ (N / 16 : ℝ) * (((I.filter (· < k)).card - 1) * Real.log 2 - Real.log ((τ (l + 1) - τ l : Nat) + 1)) ≤
      ∑ r ∈ Finset.range (τ l + 1), (g r : ℝ) := by
  have hl2 : 0 < Real.log 2 := Real.log_pos (by norm_num)
  induction k with
  | zero => simp at hne
  | succ k ih =>
    by_cases hkI : k ∈ I
    · have hcard : (I.filter (· < k + 1)).card = (I.filter (· < k)).card + 1 := by
        rw [show I.filter (· < k + 1) = insert k (I.filter (· < k)) by
          ext i
          simp only [Finset.mem_filter, Finset.mem_insert]
          constructor
          · rintro ⟨h1, h2⟩
            by_cases h : i = k
            · exact .inl h
            · exact .inr ⟨h1, by omega⟩
          · rintro (rfl | ⟨h1, h2⟩)
            · exact ⟨hkI, by omega⟩
            · exact ⟨h1, by omega⟩]
        exact Finset.card_insert_of_notMem fun h => lt_irrefl _ (Finset.mem_filter.1 h).2
      refine ⟨k, hkI, by omega, ?_⟩
      rw [hcard]
      push_cast
      rw [add_sub_cancel_right]
      rcases (I.filter (· < k)).eq_empty_or_nonempty with he | he
      · rw [he, Finset.card_empty, Nat.cast_zero, zero_mul, zero_sub]
        have h1 : 0 ≤ Real.log ((τ (k + 1) - τ k : Nat) + 1) := Real.log_nonneg (by
          have : (0 : ℝ) ≤ (τ (k + 1) - τ k : Nat) := Nat.cast_nonneg _
          linarith)
        have h2 : (0 : ℝ) ≤ ∑ r ∈ Finset.range (τ k + 1), (g r : ℝ) := Finset.sum_nonneg fun _ _ => Nat.cast_nonneg _
        have h3 : (0 : ℝ) ≤ N / 16 := by positivity
        nlinarith [mul_nonneg h3 h1]
      · obtain ⟨l, hlI, hlk, hl⟩ := ih (by omega) he
        obtain ⟨x, hx⟩ : ∃ x, τ (l + 1) - τ l = x := ⟨_, rfl⟩
        obtain ⟨y, hy⟩ : ∃ y, τ (k + 1) - τ k = y := ⟨_, rfl⟩
        rw [hx] at hl
        rw [hy]
        have hlt := hτ l (by omega)
        have hkt := hτ k (by omega)
        have hle : τ (l + 1) ≤ τ k := mono_of_step (k := k) (fun i hi => hτ i (by omega)) (l + 1) hlk
        have hsum : ∑ r ∈ Finset.range (τ l + 1), (g r : ℝ) + ∑ j ∈ Finset.range x, (g (τ k - j) : ℝ) ≤ ∑ r ∈ Finset.range (τ k + 1), (g r : ℝ) := by
          rw [← Finset.sum_image (f := fun r => (g r : ℝ)) (g := fun j => τ k - j) (s := Finset.range x) fun i hi j hj e => by
            simp only [Finset.coe_range, Set.mem_Iio] at hi hj e
            omega]
          rw [← Finset.sum_union (by
            rw [Finset.disjoint_left]
            intro r hr hr'
            obtain ⟨j, hj, rfl⟩ := Finset.mem_image.1 hr'
            rw [Finset.mem_range] at hr hj
            omega)]
          refine Finset.sum_le_sum_of_subset_of_nonneg (fun r hr => ?_) fun _ _ _ => Nat.cast_nonneg _
          rw [Finset.mem_union, Finset.mem_image] at hr
          rw [Finset.mem_range]
          rcases hr with hr | ⟨j, hj, rfl⟩
          · rw [Finset.mem_range] at hr
            omega
          · omega
        have hw : (N / 8 : ℝ) * ∑ j ∈ Finset.range x, 1 / (((y + 1 : Nat) : ℝ) + j) ≤ ∑ j ∈ Finset.range x, (g (τ k - j) : ℝ) := by
          rw [Finset.mul_sum]
          refine Finset.sum_le_sum fun j hj => ?_
          rw [Finset.mem_range] at hj
          have h1 := hg k hkI (τ k - j) (by omega)
          rw [show τ (k + 1) - (τ k - j) + 1 = y + 1 + j by omega] at h1
          have h2 : (N : ℝ) ≤ 8 * g (τ k - j) * ((y + 1 : Nat) + j) := by exact_mod_cast h1
          have h3 : (0 : ℝ) < (y + 1 : Nat) + j := by positivity
          rw [mul_one_div, div_le_iff₀ h3]
          linarith
        have hv := mul_le_mul_of_nonneg_left (window (y + 1) x (by omega) (by omega)) (show (0 : ℝ) ≤ N / 8 by positivity)
        push_cast at hw hv
        linarith
    · have hf : I.filter (· < k + 1) = I.filter (· < k) := by
        ext i
        simp only [Finset.mem_filter]
        refine and_congr_right fun hi => ⟨fun h => ?_, fun h => by omega⟩
        have : i ≠ k := fun h' => hkI (h' ▸ hi)
        omega
      rw [hf] at hne ⊢
      obtain ⟨l, h1, h2, h3⟩ := ih (by omega) hne
      exact ⟨l, h1, by omega, h3⟩

theorem cumulative_sum {N n T : Nat} {τ : Nat → Nat} (hτ : ∀ i < n, τ i < τ (i + 1)) {I : Finset Nat} (hI : I ⊆ Finset.range n) {g : Nat → Nat}
    (hg : ∀ i ∈ I, ∀ r ≤ τ i, N ≤ 8 * g r * (τ (i + 1) - r + 1)) (hT : τ n < T) (hT64 : T ≤ 2 ^ 64) (hN : N ≤ 2 * I.card) :
    N * (N - 130) ≤ 48 * ∑ r ∈ Finset.range (τ n + 1), g r := by
  by_cases h130 : N ≤ 130
  · rw [Nat.sub_eq_zero_of_le h130, Nat.mul_zero]
    exact Nat.zero_le _
  have hf : I.filter (· < n) = I := Finset.filter_true_of_mem fun i hi => Finset.mem_range.1 (hI hi)
  obtain ⟨l, h1, h2, h3⟩ := cumulative hτ hg n le_rfl (by
    rw [hf, ← Finset.card_pos]
    omega)
  rw [hf] at h3
  have hl : τ l ≤ τ n := mono_of_step hτ l h2.le
  have hl' : τ (l + 1) ≤ τ n := mono_of_step hτ (l + 1) h2
  have h4 : ∑ r ∈ Finset.range (τ l + 1), (g r : ℝ) ≤ ∑ r ∈ Finset.range (τ n + 1), (g r : ℝ) :=
    Finset.sum_le_sum_of_subset_of_nonneg (Finset.range_mono (by omega)) fun _ _ _ => Nat.cast_nonneg _
  have h5 : Real.log ((τ (l + 1) - τ l : Nat) + 1) ≤ 64 * Real.log 2 := by
    have : (((τ (l + 1) - τ l : Nat) : ℝ) + 1) ≤ 2 ^ 64 := by
      have : τ (l + 1) - τ l + 1 ≤ 2 ^ 64 := by omega
      exact_mod_cast this
    refine (Real.log_le_log (by positivity) this).trans_eq ?_
    rw [Real.log_pow]
    norm_num
  have h6 : (N : ℝ) ≤ 2 * I.card := by exact_mod_cast hN
  have h7 : (130 : ℝ) < N := by exact_mod_cast not_le.1 h130
  have hl2 : (2 / 3 : ℝ) ≤ Real.log 2 := by
    have := Real.log_two_gt_d9
    linarith
  have h8 : (N / 2 - 65 : ℝ) * (2 / 3) ≤ (I.card - 1) * Real.log 2 - Real.log ((τ (l + 1) - τ l : Nat) + 1) := by
    have h9 : (I.card - 65 : ℝ) * (2 / 3) ≤ (I.card - 65) * Real.log 2 := mul_le_mul_of_nonneg_left hl2 (by linarith)
    linarith
  have h9 := mul_le_mul_of_nonneg_left h8 (show (0 : ℝ) ≤ N / 16 by positivity)
  have h10 : (N : ℝ) * (N - 130) ≤ 48 * ∑ r ∈ Finset.range (τ n + 1), (g r : ℝ) := by linarith
  have h11 : ((N * (N - 130) : Nat) : ℝ) ≤ ((48 * ∑ r ∈ Finset.range (τ n + 1), g r : Nat) : ℝ) := by
    push_cast [Nat.cast_sub (not_le.1 h130).le]
    exact h10
  exact_mod_cast h11

section
variable {E : Type} {c : Nat} {σ : Type} (f : E → E) (M : σ → Act c σ E)

theorem spent_mul (cost cost' : σ → Nat) (b : Nat) (h : ∀ s, b * cost' s ≤ cost s) (T : Nat) (s : σ) : b * spent f M cost' T s ≤ spent f M cost T s := by
  induction T generalizing s with
  | zero => exact h s
  | succ T ih =>
    rw [spent, spent, Nat.mul_add]
    refine Nat.add_le_add (h s) ?_
    cases M s with
    | result y => simp
    | eval x next => exact ih _

theorem le_spent (cost : σ → Nat) (T : Nat) (s : σ) : cost s ≤ spent f M cost T s := by
  cases T with
  | zero => exact le_rfl
  | succ T =>
    rw [spent]
    exact Nat.le_add_right _ _

theorem sum_le_spent (cost : σ → Nat) (T t : Nat) (ht : t ≤ T) (s : σ) (h : query M (after M f t s) ≠ []) :
    ∑ r ∈ Finset.range (t + 1), cost (after M f r s) ≤ spent f M cost T s := by
  induction t generalizing s T with
  | zero => simpa [after] using le_spent f M cost T s
  | succ t ih =>
    obtain ⟨T, rfl⟩ : ∃ n, T = n + 1 := ⟨T - 1, by omega⟩
    cases e : M s with
    | result y =>
      rw [after_result M f _ s y e] at h
      simp [query, e] at h
    | eval x next =>
      rw [after] at h
      simp only [e] at h
      have := ih T (by omega) _ h
      rw [Finset.sum_range_succ', spent, Nat.add_comm]
      simp only [after, e]
      omega

theorem spent_const (C T : Nat) (s : σ) : spent f M (fun _ => C) T s ≤ (T + 1) * C := by
  induction T generalizing s with
  | zero => simp [spent]
  | succ T ih =>
    rw [spent, Nat.succ_mul, Nat.add_comm]
    refine Nat.add_le_add_right ?_ _
    cases M s with
    | result y => simp
    | eval x next => exact ih _

end

end Spec.TableMachine
