import Verif.Spec.Games
import Mathlib.Algebra.BigOperators.Intervals
import Mathlib.Tactic.Linarith
import Mathlib.Tactic.Ring
import Mathlib.Tactic.FieldSimp
import Mathlib.Tactic.Positivity

/-!
CBC with a uniformly random function and random initialization vectors is as good as random octets, up to the collisions of the inputs of
the function.
-/

namespace Spec.Games
open Spec Spec.Cbc

section avg
variable {α β : Type} [Fintype α] [Fintype β]

theorem avg_const [Nonempty α] (c : ℚ) : avg (fun _ : α => c) = c := by
  have : (Fintype.card α : ℚ) ≠ 0 := by exact_mod_cast Fintype.card_ne_zero
  simp [avg, Finset.sum_const, Finset.card_univ]

theorem avg_comm (f : α → β → ℚ) : (avg fun a => avg fun b => f a b) = avg fun b => avg fun a => f a b := by
  simp only [avg, ← Finset.sum_div]
  rw [Finset.sum_comm, div_div, div_div, mul_comm]

theorem avg_sub (f g : α → ℚ) : avg f - avg g = avg fun a => f a - g a := by
  simp only [avg, Finset.sum_sub_distrib, sub_div]

theorem avg_add (f g : α → ℚ) : (avg fun a => f a + g a) = avg f + avg g := by
  simp only [avg, Finset.sum_add_distrib, add_div]

theorem avg_mem_card (S : Finset α) [DecidablePred (· ∈ S)] : (avg fun a => if a ∈ S then (1 : ℚ) else 0) = S.card / Fintype.card α := by
  rw [avg]
  congr 1
  rw [Finset.sum_boole]
  congr 2
  ext a
  simp

theorem avg_mono {f g : α → ℚ} (h : ∀ a, f a ≤ g a) : avg f ≤ avg g :=
  div_le_div_of_nonneg_right (Finset.sum_le_sum fun a _ => h a) (by positivity)

theorem avg_abs (f : α → ℚ) : |avg f| ≤ avg fun a => |f a| := by
  rw [avg, abs_div, Nat.abs_cast]
  exact div_le_div_of_nonneg_right (Finset.abs_sum_le_sum_abs _ _) (by positivity)

theorem avg_close {f g : α → ℚ} (e : α → ℚ) (h : ∀ a, |f a - g a| ≤ e a) : |avg f - avg g| ≤ avg e := by
  rw [avg_sub]
  exact (avg_abs _).trans (avg_mono h)

theorem avg_nonneg {f : α → ℚ} (h : ∀ a, 0 ≤ f a) : 0 ≤ avg f :=
  div_nonneg (Finset.sum_nonneg fun a _ => h a) (by positivity)

theorem avg_le_one [Nonempty α] {f : α → ℚ} (h : ∀ a, f a ≤ 1) : avg f ≤ 1 := by
  rw [← avg_const (α := α) 1]
  exact avg_mono h

theorem avg_sum {ι : Type} (s : Finset ι) (f : ι → α → ℚ) : (avg fun a => ∑ j ∈ s, f j a) = ∑ j ∈ s, avg (f j) := by
  simp only [avg, Finset.sum_div]
  exact Finset.sum_comm

/-- A bijection does not change a mean. -/
theorem avg_equiv (e : α ≃ β) (f : β → ℚ) : (avg fun a => f (e a)) = avg f := by
  rw [avg, avg, Fintype.card_congr e, Equiv.sum_comp e f]

theorem avg_prod (f : α × β → ℚ) : avg f = avg fun a => avg fun b => f (a, b) := by
  simp only [avg, ← Finset.sum_div, Fintype.sum_prod_type, Fintype.card_prod, Nat.cast_mul]
  rw [div_div, mul_comm]

end avg

attribute [local irreducible] avg

instance : DecidableEq Block := inferInstance
instance : Nonempty Block := ⟨List.Vector.replicate 16 0⟩
instance {n : Nat} : Nonempty (List.Vector Byte n) := ⟨List.Vector.replicate n 0⟩

/-- A value of a random function at a given place can be drawn afterwards. -/
theorem avg_update (x : Block) (F : (Block → Block) → ℚ) :
    (avg fun u : Block => avg fun f : Block → Block => F (Function.update f x u)) = avg F := by
  let e : (Block × (Block → Block)) ≃ (Block × (Block → Block)) :=
    { toFun := fun p => (p.2 x, Function.update p.2 x p.1)
      invFun := fun p => (p.2 x, Function.update p.2 x p.1)
      left_inv := by rintro ⟨u, f⟩; simp
      right_inv := by rintro ⟨u, f⟩; simp }
  have h := avg_equiv e fun p => F p.2
  rw [avg_prod, avg_prod] at h
  exact h.trans (avg_const (α := Block) (avg F))

/-- The function `f`, except that its values on `S` are those of `g`. -/
def patch (S : Finset Block) (g f : Block → Block) (x : Block) : Block := if x ∈ S then g x else f x

theorem patch_update {S : Finset Block} {x : Block} (hx : x ∉ S) (g f : Block → Block) (u : Block) :
    patch (insert x S) (Function.update g x u) f = patch S g (Function.update f x u) := by
  funext y
  by_cases h : y = x
  · subst h
    simp [patch, hx]
  · simp [patch, h]

theorem resample {S : Finset Block} {x : Block} (hx : x ∉ S) (g : Block → Block) (F : (Block → Block) → ℚ) :
    (avg fun f : Block → Block => F (patch S g f)) =
      avg fun u : Block => avg fun f : Block → Block => F (patch (insert x S) (Function.update g x u) f) := by
  simp only [patch_update hx]
  exact (avg_update x fun f => F (patch S g f)).symm

/-- The number of blocks. -/
abbrev N : ℚ := Fintype.card Block

theorem N_eq : N = 2 ^ 128 := by
  have : Fintype.card Block = 2 ^ 128 := by
    rw [card_vector, show Fintype.card Byte = 2 ^ 8 from (Fintype.ofEquiv_card _).trans (Fintype.card_fin _)]
    norm_num
  rw [N, this]
  norm_num

theorem run_nonneg (f : Block → Block) (d : Distinguisher) : 0 ≤ d.run f := by
  induction d with
  | answer yes => rw [Distinguisher.run]; split <;> norm_num
  | query x next ih => exact ih _
  | random next ih => exact avg_nonneg ih

theorem run_le_one (f : Block → Block) (d : Distinguisher) : d.run f ≤ 1 := by
  induction d with
  | answer yes => rw [Distinguisher.run]; split <;> norm_num
  | query x next ih => exact ih _
  | random next ih => exact avg_le_one ih

theorem ideal_nonneg (a : Attacker) : 0 ≤ ideal a := by
  induction a with
  | answer yes => rw [ideal]; split <;> norm_num
  | ask ops next ih => exact avg_nonneg fun iv => avg_nonneg fun c => ih _ _

theorem ideal_le_one (a : Attacker) : ideal a ≤ 1 := by
  induction a with
  | answer yes => rw [ideal]; split <;> norm_num
  | ask ops next ih => exact avg_le_one fun iv => avg_le_one fun c => ih _ _

/-- The mean over `n` random blocks, one after the other. -/
def draw : Nat → (List Byte → ℚ) → ℚ
  | 0, k => k []
  | n + 1, k => avg fun u : Block => draw n fun rest => k (u.toList ++ rest)

theorem draw_nonneg {n : Nat} {k : List Byte → ℚ} (h : ∀ l, 0 ≤ k l) : 0 ≤ draw n k := by
  induction n generalizing k with
  | zero => exact h _
  | succ n ih => exact avg_nonneg fun u => ih fun l => h _

theorem draw_le_one {n : Nat} {k : List Byte → ℚ} (h : ∀ l, k l ≤ 1) : draw n k ≤ 1 := by
  induction n generalizing k with
  | zero => exact h _
  | succ n ih => exact avg_le_one fun u => ih fun l => h _

/-- How often an input that is drawn now is one of `s` earlier ones, the next one is one of `s + 1`, and so on: `n` times. -/
def collide (s n : Nat) : ℚ := (∑ i ∈ Finset.range n, ((s : ℚ) + i)) / N

theorem collide_succ (s n : Nat) : collide s (n + 1) = s / N + collide (s + 1) n := by
  rw [collide, collide, Finset.sum_range_succ', ← add_div, add_comm]
  congr 1
  congr 1
  · simp
  · apply Finset.sum_congr rfl
    intro i _
    push_cast
    ring

theorem collide_add (s n k : Nat) : collide s (n + k) = collide s n + collide (s + n) k := by
  rw [collide, collide, collide, Finset.sum_range_add, ← add_div]
  congr 2
  apply Finset.sum_congr rfl
  intro i _
  push_cast
  ring

theorem collide_nonneg (s n : Nat) : 0 ≤ collide s n :=
  div_nonneg (Finset.sum_nonneg fun i _ => by positivity) (by positivity)

theorem collide_le {s s' n n' : Nat} (h : s ≤ s') (h' : n ≤ n') : collide s n ≤ collide s' n' := by
  apply div_le_div_of_nonneg_right _ (by positivity)
  refine (Finset.sum_le_sum fun i _ => ?_).trans (Finset.sum_le_sum_of_subset_of_nonneg (f := fun i : Nat => (s' : ℚ) + i)
    (Finset.range_mono h') fun i _ _ => by positivity)
  have : (s : ℚ) ≤ s' := by exact_mod_cast h
  linarith

theorem collide_zero (n : Nat) : collide 0 n = (n * (n - 1) / 2) / N := by
  induction n with
  | zero => simp [collide]
  | succ n ih =>
    rw [collide, Finset.sum_range_succ, add_div, ← collide, ih]
    push_cast
    ring

/-- The chance that a random block, combined with a given one, is in a given set. -/
theorem avg_mem (m : Block) (S : Finset Block) :
    (avg fun c : Block => if List.Vector.map₂ (· ^^^ ·) m c ∈ S then (1 : ℚ) else 0) = S.card / N := by
  have h (c : Block) : List.Vector.map₂ (· ^^^ ·) m (List.Vector.map₂ (· ^^^ ·) m c) = c := by
    apply List.Vector.ext
    intro i
    simp only [List.Vector.get_map₂, ← BitVec.xor_assoc, BitVec.xor_self, BitVec.zero_xor]
  let e : Block ≃ Block := ⟨fun c => List.Vector.map₂ (· ^^^ ·) m c, fun c => List.Vector.map₂ (· ^^^ ·) m c, h, h⟩
  exact (avg_equiv e fun c => if c ∈ S then (1 : ℚ) else 0).trans (avg_mem_card S)

theorem abs_sub_le_one {a b : ℚ} (ha : 0 ≤ a) (ha' : a ≤ 1) (hb : 0 ≤ b) (hb' : b ≤ 1) : |a - b| ≤ 1 := by
  rw [abs_le]; constructor <;> linarith

theorem cbc_close (ms : List Block) (S : Finset Block) (s : Nat) (hs : S.card ≤ s) (G : Block → Block → Block)
    (K : Block → List Byte → Distinguisher) (I : Block → List Byte → ℚ) (δ : ℚ) (hI : ∀ c l, 0 ≤ I c l) (hI' : ∀ c l, I c l ≤ 1)
    (h : ∀ c l (S' : Finset Block) (g : Block → Block), S'.card ≤ s + ms.length →
      |(avg fun f => (K c l).run (patch S' g f)) - I c l| ≤ δ) :
    |(avg fun c : Block => avg fun f => (cbc c ms (K c)).run (patch S (G c) f)) - avg fun c : Block => draw ms.length (I c)| ≤
      collide s ms.length + δ := by
  induction ms generalizing S s G K I with
  | nil =>
    refine (avg_close (fun _ => δ) fun c => ?_).trans ?_
    · exact h c [] S (G c) (by simpa using hs)
    · rw [avg_const]
      have := collide_nonneg s 0
      simp only [List.length_nil]
      linarith
  | cons m ms ih =>
    have hδ : 0 ≤ δ := (abs_nonneg _).trans (h (List.Vector.replicate 16 0) [] S (G (List.Vector.replicate 16 0)) (by omega))
    have step : ∀ c : Block, |(avg fun f => (cbc c (m :: ms) (K c)).run (patch S (G c) f)) - draw (ms.length + 1) (I c)| ≤
        (if List.Vector.map₂ (· ^^^ ·) m c ∈ S then (1 : ℚ) else 0) + (collide (s + 1) ms.length + δ) := by
      intro c
      have hc := collide_nonneg (s + 1) ms.length
      split
      · refine (abs_sub_le_one (avg_nonneg fun f => run_nonneg _ _) (avg_le_one fun f => run_le_one _ _)
          (draw_nonneg (hI c)) (draw_le_one (hI' c))).trans ?_
        linarith
      · rename_i hx
        rw [resample hx (G c) fun f => (cbc c (m :: ms) (K c)).run f, zero_add, draw]
        have := ih (insert (List.Vector.map₂ (· ^^^ ·) m c) S) (s + 1) ((Finset.card_insert_le _ _).trans (by omega))
          (fun u => Function.update (G c) (List.Vector.map₂ (· ^^^ ·) m c) u) (fun u rest => K c (u.toList ++ rest))
          (fun u rest => I c (u.toList ++ rest)) (fun _ _ => hI _ _) (fun _ _ => hI' _ _)
          (fun u l S' g hS => h c _ S' g (by simp only [List.length_cons]; omega))
        refine le_of_eq_of_le ?_ this
        congr 2
        refine congrArg avg (funext fun u => congrArg avg (funext fun f => ?_))
        rw [cbc, Distinguisher.run]
        simp [patch]
    refine (avg_close _ step).trans ?_
    rw [List.length_cons, collide_succ, avg_add, avg_const, avg_mem]
    have : (S.card : ℚ) / N ≤ s / N := div_le_div_of_nonneg_right (by exact_mod_cast hs) (by positivity)
    linarith

theorem avg_vector_zero (k : List.Vector Byte 0 → ℚ) : avg k = k List.Vector.nil := by
  have : k = fun _ => k List.Vector.nil := by
    funext c
    rw [List.Vector.eq_nil c]
  rw [this, avg_const]

theorem avg_vector_append (a b : Nat) (k : List Byte → ℚ) :
    (avg fun c : List.Vector Byte (a + b) => k c.toList) =
      avg fun c : List.Vector Byte a => avg fun d : List.Vector Byte b => k (c.toList ++ d.toList) := by
  let e : List.Vector Byte a × List.Vector Byte b ≃ List.Vector Byte (a + b) :=
    { toFun := fun p => ⟨p.1.toList ++ p.2.toList, by simp⟩
      invFun := fun c => (⟨c.toList.take a, by simp⟩, ⟨c.toList.drop a, by simp⟩)
      left_inv := by
        rintro ⟨⟨x, hx⟩, ⟨y, hy⟩⟩
        subst hx hy
        simp [List.Vector.toList]
      right_inv := by
        rintro ⟨x, hx⟩
        apply Subtype.ext
        simp [List.Vector.toList] }
  rw [← avg_equiv e, avg_prod]
  rfl

theorem draw_eq (n : Nat) (k : List Byte → ℚ) : draw n k = avg fun c : List.Vector Byte (16 * n) => k c.toList := by
  induction n generalizing k with
  | zero => exact (avg_vector_zero fun c => k c.toList).symm
  | succ n ih =>
    have h : 16 * (n + 1) = 16 + 16 * n := by omega
    rw [h, avg_vector_append, draw]
    exact congrArg avg (funext fun u => ih _)

theorem blocksOf_length (s : List Byte) : (blocksOf s).length = s.length / 16 := by simp [blocksOf]

/-- CBC with a random function whose values on `S` are known already. -/
theorem reduce_close {ok : Op → Prop} (a : Attacker) (n : Nat) (ha : a.Within ok n) (S : Finset Block) (g : Block → Block) :
    |(avg fun f => a.reduce.run (patch S g f)) - ideal a| ≤ collide S.card n := by
  induction a generalizing n S g with
  | answer yes =>
    simp only [Attacker.reduce, Distinguisher.run, ideal, avg_const, sub_self, abs_zero]
    exact collide_nonneg _ _
  | ask ops next ih =>
    obtain ⟨-, hn, hw⟩ := ha
    have h := cbc_close (blocksOf (plain [] ops)) S S.card le_rfl (fun _ => g) (fun iv c => (next iv c).reduce)
      (fun iv c => ideal (next iv c)) (collide (S.card + size ops) (n - size ops)) (fun _ _ => ideal_nonneg _) (fun _ _ => ideal_le_one _)
      (fun iv c S' g' hS => (ih iv c _ (hw iv c) S' g').trans (collide_le (by rw [blocksOf_length] at hS; exact hS) le_rfl))
    rw [blocksOf_length] at h
    have e : collide S.card n = collide S.card ((plain [] ops).length / 16) + collide (S.card + size ops) (n - size ops) := by
      conv_lhs => rw [show n = size ops + (n - size ops) from by omega]
      exact collide_add _ _ _
    rw [e]
    refine le_of_eq_of_le ?_ h
    congr 2
    · rw [avg_comm]; rfl
    · rw [ideal]
      exact congrArg avg (funext fun iv => (draw_eq (size ops) fun c => ideal (next iv c)).symm)

/-- CBC with a random function and random initialization vectors, against random octets. -/
theorem random_function {ok : Op → Prop} (a : Attacker) (n : Nat) (ha : a.Within ok n) :
    |(avg fun f => a.reduce.run f) - ideal a| ≤ n * (n - 1) / 2 ^ 129 := by
  have h := reduce_close a n ha ∅ id
  rw [Finset.card_empty, collide_zero, N_eq] at h
  have e : (n * (n - 1) / 2 : ℚ) / 2 ^ 128 = n * (n - 1) / 2 ^ 129 := by ring
  rw [e] at h
  refine le_of_eq_of_le ?_ h
  congr 2

end Spec.Games
