import Verif.Proof.MemorySum
import Verif.Props.MemoryHard

/-!
Property C114: with scrypt, memory is needed nearly all the time. In C113 the machine has the same memory in all steps; here it may use much memory
in some steps and little in others, and what counts is the memory added up over all steps, which is what memory costs when it is shared with others.
Machines, and `spent`, are in `Spec/TableMachine.lean`.
-/

namespace Verif.Props.MemoryTime
open Verif Verif.Props.TableMemory Verif.Props.MemoryHard Spec.TableGames Spec.TableMachine
open Spec.Games (avg avg_mono avg_const)

attribute [local irreducible] avg

/-- **C114.** Let a machine keep one of the values of a finite type between two steps, where `ρ s` is about the number of entries that there is room
for in `s`. The probability that the machine has the result of scryptROMix, and that the sum of `ρ` over all steps is less than
`N * (N - 130) / 48`, is small. There are up to `c` evaluations in each step. The number `A` is for the values that are better than others: they are
one in `A`. -/
theorem C114_machine (w : Nat) {σ : Type} [Fintype σ] (index : Entry w → Nat) (N : Nat) (hN : 0 < N) (hb : Balanced index N) (B : Entry w)
    (c : Nat) (hc : 1 ≤ c) (M : σ → Act c σ (Entry w)) (s₀ : σ) (ρ : σ → Nat) (hρ : ∀ s, 1 ≤ ρ s) (T A : Nat) (hA : 2 ≤ A) (hT : T ≤ 2 ^ 64) :
    (avg fun f : Entry w → Entry w =>
      if outcome f M T s₀ = some (roMix f index N B) ∧ 48 * spent f M ρ T s₀ < N * (N - 130) then 1 else 0) ≤
      (N - 1).choose (N / 2) * (1 / 8 + 1 / A : ℚ) ^ (N / 2) +
      (N - 1 : Nat) * (∑ s, (N : ℚ) * c * A * (2 * ((c : ℚ) * N * (N + 1)) ^ 2 / Fintype.card (Entry w)) ^ ρ s) +
      (N : ℚ) ^ 2 * (2 * N + c * (T + 1) + 3) / Fintype.card (Entry w) := by
  have : Nonempty (Entry w) := ⟨B⟩
  have hN0 : (0 : ℚ) < N := by exact_mod_cast hN
  have hA2 : (2 : ℚ) ≤ A := by exact_mod_cast hA
  obtain ⟨e, he⟩ := balanced_equiv index N hN hb
  have hR : 0 < Fintype.card (Fin (Fintype.card (Entry w) / N)) := Fintype.card_pos_iff.2 ⟨(e B).2⟩
  have h8 : ((N / 8 : Nat) / N : ℚ) ≤ 1 / 8 := by
    rw [div_le_iff₀ hN0]
    have := Nat.cast_div_le (α := ℚ) (m := N) (n := 8)
    push_cast at this
    linarith
  have hA1 : (1 : ℚ) / A ≤ 1 / 2 := one_div_le_one_div_of_le (by norm_num) hA2
  have hlim (s : σ) : ρ s * (N / (8 * ρ s)) ≤ N / 8 := by
    rw [Nat.le_div_iff_mul_le (by norm_num), Nat.mul_comm, ← Nat.mul_assoc]
    exact Nat.mul_div_le _ _
  have hmem := memory (σ := σ) (op := List.Vector.map₂ (· ^^^ ·)) (ix := fun X => (⟨index X % N, Nat.mod_lt _ hN⟩ : Fin N)) (B := B) (M := M) (s₀ := s₀)
    (d := fun s => N / (8 * ρ s)) (ρ := ρ) (xor_left w) (xor_right w) e (fun u => Fin.ext (he u)) (by omega : 0 < A) hlim (fun _ => Nat.div_le_self _ _) _ _
    rfl (by linarith) (fun bad _ hbad => avg_near hc hR e ρ A N bad hbad) (N / 2) T
    (fun f => outcome f M T s₀ = some (roMix f index N B) ∧ 48 * spent f M ρ T s₀ < N * (N - 130))
    (fun f hf => by
      rw [loopX_eq f index N hN B N]
      exact hf.1)
    (fun f hf => by
      rintro ⟨τ, I, hI, h1, h2, h3, h4⟩
      have h5 := cumulative_sum (g := fun r => ρ (after M f r s₀)) h2 hI (fun i hi r hr => by
        have h6 : r + N / (8 * ρ (after M f r s₀)) ≤ τ (i + 1) := h4 i hi r hr
        have h7 : N / (8 * ρ (after M f r s₀)) < τ (i + 1) - r + 1 := by omega
        rw [Nat.div_lt_iff_lt_mul (by have := hρ (after M f r s₀); omega), Nat.mul_comm] at h7
        exact h7.le) (h1 (N - 1) le_rfl).1 hT (by omega)
      have h6 := sum_le_spent f M ρ T (τ (N - 1)) (h1 (N - 1) le_rfl).1.le s₀ (h1 (N - 1) le_rfl).2
      have := hf.2
      omega)
  refine hmem.trans ?_
  gcongr

/-! ### In octets -/

section
variable {c w : Nat} (M : List U8 → Act c (List U8) (Entry w)) (K : Nat)

/-- The contents of a memory with less than `K` octets. -/
abbrev Small (K : Nat) := (l : Fin K) × List.Vector U8 l

/-- The machine, as long as it uses less than `K` octets. -/
def small (s : Small K) : Act c (Small K) (Entry w) := match M s.2.toList with
  | .result y => .result y
  | .eval x next => .eval x fun y => if h : (next y).length < K then ⟨⟨_, h⟩, next y, rfl⟩ else s

theorem small_run (f : Entry w → Entry w) (cost : List U8 → Nat) (hcost : ∀ s, s.length ≤ cost s) (T : Nat) (s : Small K)
    (h : spent f M cost T s.2.toList < K) :
    outcome f (small M K) T s = outcome f M T s.2.toList ∧ spent f (small M K) (fun s => cost s.2.toList) T s = spent f M cost T s.2.toList := by
  induction T generalizing s with
  | zero =>
    refine ⟨?_, rfl⟩
    rw [outcome, outcome, small]
    cases M s.2.toList <;> rfl
  | succ T ih =>
    rw [spent] at h
    rw [outcome, outcome, spent, spent, small]
    cases e : M s.2.toList with
    | result y => exact ⟨rfl, rfl⟩
    | eval x next =>
      simp only [e] at h
      have h1 : (next fun i => f (x i)).length < K := by
        have := le_spent f M cost T (next fun i => f (x i))
        have := hcost (next fun i => f (x i))
        omega
      have h2 := ih ⟨⟨_, h1⟩, (next fun i => f (x i)), rfl⟩ (by
        change spent f M cost T (next fun i => f (x i)) < K
        omega)
      simp only [h1, dite_true]
      exact ⟨h2.1, congrArg _ h2.2⟩

end

/-- **C114.** In octets: the memory of a machine is a list of octets, as long as the machine likes, and what a step costs is the number of octets
kept, and one entry for what is being computed. With `N` a power of two and Integerify as in scrypt, a machine that has the result of scryptROMix
has spent about `128 * r * N ^ 2 / 48` octets times steps, except with a probability of `1 / 2 ^ (N / 2) + 1 / 2 ^ 64`. The other bounds are far
away: there are no more than `2 ^ 64` evaluations, and `r` is less than `2 ^ 64`. -/
theorem C114_octets (r n : Nat) (hr : 1 ≤ r) (hr64 : r < 2 ^ 64) (hn : 1 ≤ n) (B : Entry (128 * r)) (c : Nat) (hc₁ : 1 ≤ c)
    (machine : List U8 → Act c (List U8) (Entry (128 * r))) (s₀ : List U8) (T : Nat)
    (hcN : c * (2 ^ n * (2 ^ n + 1)) ≤ 2 ^ 64) (hcT : c * (T + 1) ≤ 2 ^ 64) :
    (avg fun f : Entry (128 * r) → Entry (128 * r) =>
      if outcome f machine T s₀ = some (roMix f (fun X => Spec.Scrypt.integerify r X.toList) (2 ^ n) B) ∧
        48 * spent f machine (fun s => s.length + 128 * r + 32) T s₀ < (128 * r - 17) * (2 ^ n * (2 ^ n - 130)) then 1 else 0) ≤
      (1 : ℚ) / 2 ^ (2 ^ n / 2) + 1 / 2 ^ 64 := by
  have hN : 2 ^ n * (2 ^ n + 1) ≤ 2 ^ 64 := (Nat.le_mul_of_pos_left _ hc₁).trans hcN
  have hT64 : T ≤ 2 ^ 64 := by
    have : T + 1 ≤ c * (T + 1) := Nat.le_mul_of_pos_left _ hc₁
    omega
  have hn64 : n ≤ 64 := (Nat.pow_le_pow_iff_right (by omega)).1 ((Nat.le_mul_of_pos_right _ (Nat.succ_pos _)).trans hN)
  have hbal := integerify_balanced r n hr (by omega)
  obtain ⟨H, hH⟩ : ∃ H, 2 ^ n = 2 * H := ⟨2 ^ (n - 1), by rw [← Nat.pow_succ']; congr 1; omega⟩
  have hH0 : 0 < H := by
    have := Nat.two_pow_pos n
    omega
  rw [hH] at hN hcN hbal ⊢
  rw [Nat.mul_div_cancel_left H (by omega)]
  -- what is spent bounds the memory
  let K := 128 * r * (2 * H * (2 * H)) + 1
  have hspent (f : Entry (128 * r) → Entry (128 * r))
      (h : 48 * spent f machine (fun s => s.length + 128 * r + 32) T s₀ < (128 * r - 17) * (2 * H * (2 * H - 130))) :
      spent f machine (fun s => s.length + 128 * r + 32) T s₀ < K := by
    have : (128 * r - 17) * (2 * H * (2 * H - 130)) ≤ 128 * r * (2 * H * (2 * H)) :=
      Nat.mul_le_mul (by omega) (Nat.mul_le_mul_left _ (by omega))
    simp only [K]
    omega
  have hpos : (0 : ℚ) ≤ 1 / 2 ^ H + 1 / 2 ^ 64 := by positivity
  by_cases hs₀ : s₀.length < K
  swap
  · have : Nonempty (Entry (128 * r)) := ⟨B⟩
    refine (avg_mono (g := fun _ => 0) fun f => ?_).trans ((avg_const 0).trans_le hpos)
    rw [if_neg]
    rintro ⟨-, h⟩
    have h1 := hspent f h
    have h2 := le_spent f machine (fun s => s.length + 128 * r + 32) T s₀
    omega
  let start : Small K := ⟨⟨_, hs₀⟩, s₀, rfl⟩
  let ρ (s : Small K) : Nat := (s.1.1 + 49) / (128 * r - 17) + 1
  have hρ (s : Small K) : (128 * r - 17) * ρ s ≤ s.2.toList.length + 128 * r + 32 := by
    have h1 : (128 * r - 17) * ((s.1.1 + 49) / (128 * r - 17)) ≤ s.1.1 + 49 := Nat.mul_div_le _ _
    rw [List.Vector.toList_length]
    simp only [ρ]
    rw [Nat.mul_add]
    omega
  have hmain := C114_machine (128 * r) _ (2 * H) (by omega) hbal B c hc₁ (small machine K) start ρ (fun s => by simp [ρ]) T (2 ^ 72) (by norm_num) hT64
  refine (avg_mono fun f => ?_).trans (hmain.trans ?_)
  · by_cases h : outcome f machine T s₀ = some (roMix f (fun X => Spec.Scrypt.integerify r X.toList) (2 * H) B) ∧
        48 * spent f machine (fun s => s.length + 128 * r + 32) T s₀ < (128 * r - 17) * (2 * H * (2 * H - 130))
    · rw [if_pos h, if_pos]
      obtain ⟨h1, h2⟩ := small_run machine K f (fun s => s.length + 128 * r + 32) (fun s => by omega) T start (hspent f h.2)
      refine ⟨h1.trans h.1, ?_⟩
      have h3 := spent_mul f (small machine K) _ ρ (128 * r - 17) hρ T start
      rw [h2] at h3
      have h4 := h.2
      change (128 * r - 17) * spent f (small machine K) ρ T start ≤ spent f machine (fun s => s.length + 128 * r + 32) T s₀ at h3
      refine Nat.lt_of_mul_lt_mul_left (a := 128 * r - 17) ?_
      rw [Nat.mul_left_comm]
      omega
    · rw [if_neg h]
      split_ifs <;> norm_num
  rw [Nat.mul_div_cancel_left H (by omega)]
  have hU : Fintype.card U8 = 2 ^ 8 := (Fintype.ofEquiv_card _).trans (Fintype.card_fin _)
  have hc (w : Nat) : Fintype.card (List.Vector U8 w) = 2 ^ (8 * w) := by rw [card_vector, hU, ← pow_mul]
  have hHq : (0 : ℚ) < H := by exact_mod_cast hH0
  have hchoose : ((2 * H - 1).choose H : ℚ) ≤ 2 ^ (2 * H - 1) := by exact_mod_cast Nat.choose_le_two_pow _ _
  have h64 : (c : ℚ) * (2 * H : Nat) * ((2 * H : Nat) + 1) ≤ 2 ^ 64 := by rw [mul_assoc]; exact_mod_cast hcN
  have hA72 : ((2 ^ 72 : Nat) : ℚ) = 2 ^ 72 := by norm_num
  have e : (2 : ℚ) ^ (8 * (128 * r)) = 2 ^ (8 * (128 * r - 17)) * 2 ^ 136 := by
    rw [← pow_add]
    congr 1
    omega
  have hHH : 2 * H * (2 * H) ≤ 2 ^ 64 := (Nat.mul_le_mul_left _ (by omega)).trans hN
  have hH32 : 2 * H ≤ 2 ^ 63 := by
    by_contra hlt
    have := Nat.mul_le_mul (not_le.1 hlt).le (not_le.1 hlt).le
    omega
  -- the evaluations that come soon
  have t1 : ((2 * H - 1).choose H : ℚ) * (1 / 8 + 1 / (2 ^ 72 : Nat) : ℚ) ^ H ≤ 1 / 2 ^ H := by
    have h1 := eighth H (by
      have : H ≤ 2 ^ 63 := by omega
      exact_mod_cast this)
    rw [hA72]
    calc ((2 * H - 1).choose H : ℚ) * (1 / 8 + 1 / 2 ^ 72 : ℚ) ^ H ≤ 2 ^ (2 * H - 1) * (2 * (1 / 8) ^ H) := by gcongr
      _ = 2 ^ (2 * H) * (1 / 8) ^ H := by
          rw [← mul_assoc, ← pow_succ, show 2 * H - 1 + 1 = 2 * H by omega]
      _ = 1 / 2 ^ H := by
          rw [pow_mul, ← mul_pow, ← one_div_pow]
          norm_num
  -- the contents of the memory
  have t2 : ((2 * H - 1 : Nat) : ℚ) * (∑ s : Small K, ((2 * H : Nat) : ℚ) * c * (2 ^ 72 : Nat) *
      (2 * ((c : ℚ) * (2 * H : Nat) * ((2 * H : Nat) + 1)) ^ 2 / Fintype.card (Entry (128 * r))) ^ ρ s) ≤ 1 / 2 ^ 65 := by
    rw [hc, hA72]
    have h1 : (2 * ((c : ℚ) * (2 * H : Nat) * ((2 * H : Nat) + 1)) ^ 2 / (2 ^ (8 * (128 * r)) : Nat)) ≤ 1 / 2 ^ (8 * (128 * r - 17)) := by
      push_cast at h64 ⊢
      rw [e, div_le_div_iff₀ (by positivity) (by positivity), one_mul, mul_comm (2 ^ (8 * (128 * r - 17)))]
      gcongr
      calc 2 * ((c : ℚ) * (2 * H) * (2 * H + 1)) ^ 2 ≤ 2 * (2 ^ 64) ^ 2 := by gcongr
        _ ≤ 2 ^ 136 := by norm_num
    have h2 (s : Small K) : (2 * ((c : ℚ) * (2 * H : Nat) * ((2 * H : Nat) + 1)) ^ 2 / (2 ^ (8 * (128 * r)) : Nat)) ^ ρ s ≤
        1 / 2 ^ (8 * (s.1.1 + 49)) := by
      refine (pow_le_pow_left₀ (by positivity) h1 _).trans ?_
      rw [div_pow, one_pow, ← pow_mul]
      refine one_div_le_one_div_of_le (by positivity) (pow_le_pow_right₀ (by norm_num) ?_)
      rw [Nat.mul_assoc]
      refine Nat.mul_le_mul_left _ ?_
      simp only [ρ]
      exact (Nat.lt_mul_div_succ _ (by omega)).le
    have h3 : ((2 * H - 1 : Nat) : ℚ) * ((2 * H : Nat) * c) ≤ 2 ^ 64 := by
      have : (2 * H - 1) * (2 * H * c) ≤ 2 ^ 64 := by
        refine le_trans ?_ hcN
        rw [Nat.mul_comm (2 * H) c, Nat.mul_left_comm]
        refine Nat.mul_le_mul_left _ ?_
        rw [Nat.mul_comm]
        exact Nat.mul_le_mul_left _ (by omega)
      exact_mod_cast this
    have h4 : ∑ s : Small K, (1 : ℚ) / 2 ^ (8 * (s.1.1 + 49)) = K * (1 / (2 ^ 200 * 2 ^ 192)) := by
      rw [Fintype.sum_sigma]
      refine (Finset.sum_congr rfl fun l _ => ?_).trans (by rw [Finset.sum_const, Finset.card_univ, Fintype.card_fin, nsmul_eq_mul])
      simp only
      rw [Finset.sum_const, Finset.card_univ, hc, nsmul_eq_mul, Nat.mul_add, show 8 * 49 = 200 + 192 from rfl, pow_add, pow_add]
      push_cast
      field_simp
    have h5 : (K : ℚ) ≤ 2 ^ 136 := by
      have : K ≤ 2 ^ 136 := by
        have h6 : 128 * r * (2 * H * (2 * H)) ≤ 2 ^ 71 * 2 ^ 64 := Nat.mul_le_mul (by omega) hHH
        simp only [K]
        omega
      exact_mod_cast this
    calc ((2 * H - 1 : Nat) : ℚ) * (∑ s : Small K, ((2 * H : Nat) : ℚ) * c * 2 ^ 72 *
          (2 * ((c : ℚ) * (2 * H : Nat) * ((2 * H : Nat) + 1)) ^ 2 / (2 ^ (8 * (128 * r)) : Nat)) ^ ρ s) ≤
        ((2 * H - 1 : Nat) : ℚ) * (∑ s : Small K, ((2 * H : Nat) : ℚ) * c * 2 ^ 72 * (1 / 2 ^ (8 * (s.1.1 + 49)))) := by
          refine mul_le_mul_of_nonneg_left (Finset.sum_le_sum fun s _ => mul_le_mul_of_nonneg_left (h2 s) (by positivity)) (by positivity)
      _ = (((2 * H - 1 : Nat) : ℚ) * ((2 * H : Nat) * c)) * 2 ^ 72 * (K * (1 / (2 ^ 200 * 2 ^ 192))) := by
          rw [← Finset.mul_sum, h4]
          ring
      _ ≤ 2 ^ 64 * 2 ^ 72 * (2 ^ 136 * (1 / (2 ^ 200 * 2 ^ 192))) := by gcongr
      _ ≤ 1 / 2 ^ 65 := by norm_num
  -- what happens by chance
  have t3 : ((2 * H : Nat) : ℚ) ^ 2 * (2 * (2 * H : Nat) + c * (T + 1) + 3) / Fintype.card (Entry (128 * r)) ≤ 1 / 2 ^ 65 := by
    rw [hc]
    have h1 : ((2 * H : Nat) : ℚ) ≤ 2 ^ 64 := by
      have : 2 * H ≤ 2 ^ 64 := by omega
      exact_mod_cast this
    have h2 : (c : ℚ) * (T + 1) ≤ 2 ^ 64 := by exact_mod_cast hcT
    have h4 : (2 : ℚ) ^ 300 ≤ 2 ^ (8 * (128 * r)) := pow_le_pow_right₀ (by norm_num) (by omega)
    push_cast at h1 ⊢
    rw [div_le_div_iff₀ (by positivity) (by positivity), one_mul]
    refine le_trans ?_ h4
    calc (2 * H : ℚ) ^ 2 * (2 * (2 * H) + c * (T + 1) + 3) * 2 ^ 65 ≤ (2 ^ 64) ^ 2 * (2 * 2 ^ 64 + 2 ^ 64 + 3) * 2 ^ 65 := by gcongr
      _ ≤ 2 ^ 300 := by
          rw [show (2 : ℚ) ^ 300 = 2 ^ 200 * 2 ^ 100 by rw [← pow_add]]
          norm_num
  have t4 : (1 : ℚ) / 2 ^ 65 + 1 / 2 ^ 65 = 1 / 2 ^ 64 := by norm_num
  linarith

/-- **C114.** That is what it takes, up to a constant: the machine that keeps `p` entries of the table of size `N = p * k`, two more of the same size
and two numbers below `N + 1` has the result after `N * k + N` steps, and then it has spent no more than `(N * k + N + 1) * (p + 2)` entries times
steps. This is about `2 * N ^ 2` with the whole table, `k = 1`, and about `N ^ 2` with a large `k`. -/
theorem C114_keeper {w p k N : Nat} (f : Entry w → Entry w) (index : Entry w → Nat) (hk : 0 < k) (hN : 0 < N) (h : N = p * k) (B : Entry w) :
    outcome f (keeper index hk hN h) (N * k + N) (.inl (fun _ => B, B, ⟨0, hN⟩)) = some (roMix f index N B) ∧
      spent f (keeper index hk hN h) (fun _ => p + 2) (N * k + N) (.inl (fun _ => B, B, ⟨0, hN⟩)) ≤ (N * k + N + 1) * (p + 2) :=
  ⟨C113_keeper f index hk hN h B, spent_const f _ _ _ _⟩

/-! ### A case -/

/-- A machine that keeps all values of the function that it has seen, a thousand of them in each step, until there are a million octets, and
then only the last one. -/
def exampleMachine (s : List U8) : Act 1000 (List U8) (Entry (128 * 8)) :=
  .eval (fun i => ofList (128 * 8) (s.drop i)) fun y =>
    if s.length < 1000000 then s ++ (List.ofFn fun i => (y i).toList).flatten else (y 999).toList

/-- The parameters of the third test vector in RFC 7914. -/
example (B : Entry (128 * 8)) := C114_octets 8 14 (by decide) (by norm_num) (by decide) B 1000 (by decide) exampleMachine B.toList (2 ^ 40)
  (by decide) (by decide)

/-- This is as much as all of the 16 MiB that the table takes, during 333 steps. -/
example : 333 * (128 * 8 * 2 ^ 14) ≤ (128 * 8 - 17) * (2 ^ 14 * (2 ^ 14 - 130)) / 48 := by norm_num

example (B : Entry (128 * 8)) := C114_machine (128 * 8) (fun X => Spec.Scrypt.integerify 8 X.toList) 16384 (by norm_num)
  (integerify_balanced 8 14 (by decide) (by decide)) B 1 le_rfl MemoryHard.exampleKeeper (.inl (fun _ => B, B, ⟨0, by norm_num⟩))
  (Sum.elim (fun _ => 33) fun _ => 34) (fun s => by cases s <;> simp) (2 ^ 40) (2 ^ 72) (by norm_num) (by norm_num)

example (B : Entry (128 * 8)) (f : Entry (128 * 8) → Entry (128 * 8)) :
    spent f MemoryHard.exampleKeeper (fun _ => 32 + 2) (16384 * 512 + 16384) (.inl (fun _ => B, B, ⟨0, by norm_num⟩)) ≤ (16384 * 512 + 16384 + 1) * (32 + 2) :=
  (C114_keeper f _ _ _ _ B).2

end Verif.Props.MemoryTime
