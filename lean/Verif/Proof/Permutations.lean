import Verif.Proof.Games
import Mathlib.Logic.Equiv.Basic
import Mathlib.Algebra.BigOperators.Group.Finset.Sigma

/-!
A uniformly random permutation of the blocks is as good as a uniformly random function, up to the collisions of the values of the function.
-/

namespace Spec.Games
open Spec Spec.Cbc

attribute [local irreducible] avg

theorem avg_scale {α : Type} [Fintype α] (f : α → ℚ) (c : ℚ) : (avg fun a => f a * c) = avg f * c := by
  unfold avg
  rw [← Finset.sum_mul, mul_div_right_comm]

section permutations
variable {α : Type} [Fintype α] [DecidableEq α]

/-- The permutations that agree with `g` on `S`. -/
noncomputable def agree (S : Finset α) (g : α → α) : Finset (Equiv.Perm α) := {σ | ∀ z ∈ S, σ z = g z}

theorem mem_agree {S : Finset α} {g : α → α} {σ : Equiv.Perm α} : σ ∈ agree S g ↔ ∀ z ∈ S, σ z = g z := by
  simp [agree]

/-- The mean over the permutations that agree with `g` on `S`. -/
noncomputable def among (S : Finset α) (g : α → α) (F : Equiv.Perm α → ℚ) : ℚ :=
  (∑ σ ∈ agree S g, F σ) / (agree S g).card

theorem among_nonneg (S : Finset α) (g : α → α) {F : Equiv.Perm α → ℚ} (h : ∀ σ, 0 ≤ F σ) : 0 ≤ among S g F :=
  div_nonneg (Finset.sum_nonneg fun σ _ => h σ) (by positivity)

theorem among_le_one (S : Finset α) (g : α → α) {F : Equiv.Perm α → ℚ} (h : ∀ σ, F σ ≤ 1) : among S g F ≤ 1 := by
  refine div_le_one_of_le₀ ((Finset.sum_le_sum fun σ _ => h σ).trans (le_of_eq ?_)) (by positivity)
  simp

theorem mem_agree_insert {S : Finset α} {g : α → α} {x u : α} (hx : x ∉ S) {σ : Equiv.Perm α} :
    σ ∈ agree (insert x S) (Function.update g x u) ↔ σ ∈ agree S g ∧ σ x = u := by
  simp only [mem_agree, Finset.mem_insert, forall_eq_or_imp, Function.update_self]
  rw [and_comm]
  refine and_congr (forall_congr' fun z => imp_congr_right fun hz => ?_) Iff.rfl
  rw [Function.update_of_ne (by rintro rfl; exact hx hz)]

theorem swap_mem {S : Finset α} {g : α → α} {x u v : α} (hx : x ∉ S) (hv : v ∉ S.image g) {σ : Equiv.Perm α}
    (h : σ ∈ agree (insert x S) (Function.update g x u)) :
    Equiv.swap u v * σ ∈ agree (insert x S) (Function.update g x v) := by
  rw [mem_agree_insert hx] at h ⊢
  refine ⟨mem_agree.2 fun z hz => ?_, by rw [Equiv.Perm.mul_apply, h.2, Equiv.swap_apply_left]⟩
  have h1 := mem_agree.1 h.1 z hz
  rw [Equiv.Perm.mul_apply, Equiv.swap_apply_of_ne_of_ne, h1]
  · rw [← h.2]
    exact fun e => hx ((σ.injective e) ▸ hz)
  · rw [h1]
    exact fun e => hv (Finset.mem_image.2 ⟨z, hz, e⟩)

theorem agree_card {S : Finset α} {g : α → α} {x u v : α} (hx : x ∉ S) (hu : u ∉ S.image g) (hv : v ∉ S.image g) :
    (agree (insert x S) (Function.update g x u)).card = (agree (insert x S) (Function.update g x v)).card :=
  Finset.card_bij' (fun σ _ => Equiv.swap u v * σ) (fun σ _ => Equiv.swap v u * σ) (fun σ h => swap_mem hx hv h) (fun σ h => swap_mem hx hu h)
    (fun σ _ => by rw [← mul_assoc, Equiv.swap_comm v u, Equiv.swap_mul_self, one_mul])
    (fun σ _ => by rw [← mul_assoc, Equiv.swap_comm v u, Equiv.swap_mul_self, one_mul])

theorem agree_sum {S : Finset α} {g : α → α} {x : α} (hx : x ∉ S) (F : Equiv.Perm α → ℚ) :
    ∑ σ ∈ agree S g, F σ = ∑ u ∈ (S.image g)ᶜ, ∑ σ ∈ agree (insert x S) (Function.update g x u), F σ := by
  rw [← Finset.sum_fiberwise_of_maps_to (s := agree S g) (t := (S.image g)ᶜ) (g := fun σ => σ x)]
  · refine Finset.sum_congr rfl fun u _ => Finset.sum_congr ?_ fun _ _ => rfl
    ext σ
    rw [Finset.mem_filter, mem_agree_insert hx]
  · intro σ h
    rw [Finset.mem_compl, Finset.mem_image]
    rintro ⟨z, hz, e⟩
    rw [← mem_agree.1 h z hz] at e
    exact hx (σ.injective e ▸ hz)

theorem image_card {S : Finset α} {g : α → α} (h : (agree S g).Nonempty) : (S.image g).card = S.card := by
  obtain ⟨σ, h⟩ := h
  refine Finset.card_image_of_injOn fun a ha b hb e => ?_
  rw [← mem_agree.1 h a ha, ← mem_agree.1 h b hb] at e
  exact σ.injective e

/-- A value of a random permutation at a new place is any of the values not taken. -/
theorem among_step {S : Finset α} {g : α → α} {x : α} (hx : x ∉ S) (F : Equiv.Perm α → ℚ) :
    ((S.image g)ᶜ.card : ℚ) * among S g F = ∑ u ∈ (S.image g)ᶜ, among (insert x S) (Function.update g x u) F := by
  by_cases hne : (S.image g)ᶜ.Nonempty
  · obtain ⟨v, hv⟩ := hne
    have hc : ∀ u ∈ (S.image g)ᶜ, (agree (insert x S) (Function.update g x u)).card = (agree (insert x S) (Function.update g x v)).card :=
      fun u hu => agree_card hx (Finset.mem_compl.1 hu) (Finset.mem_compl.1 hv)
    have e1 := agree_sum (g := g) hx F
    have e2 := agree_sum (g := g) hx fun _ => 1
    have e3 : ∑ u ∈ (S.image g)ᶜ, among (insert x S) (Function.update g x u) F =
        (∑ σ ∈ agree S g, F σ) / (agree (insert x S) (Function.update g x v)).card := by
      rw [e1, Finset.sum_div]
      exact Finset.sum_congr rfl fun u hu => by rw [among, hc u hu]
    simp only [Finset.sum_const, nsmul_eq_mul, mul_one] at e2
    have e4 : ((agree S g).card : ℚ) = (S.image g)ᶜ.card * (agree (insert x S) (Function.update g x v)).card := by
      rw [e2, Finset.sum_congr rfl fun u hu => by rw [hc u hu], Finset.sum_const, nsmul_eq_mul]
    have hn : ((S.image g)ᶜ.card : ℚ) ≠ 0 := by
      exact_mod_cast (Finset.card_pos.2 ⟨v, hv⟩).ne'
    rw [e3, among, e4, ← mul_div_assoc, mul_div_mul_left _ _ hn]
  · rw [Finset.not_nonempty_iff_eq_empty.1 hne]
    simp

theorem agree_nonempty {S : Finset α} {g : α → α} {x u : α} (hx : x ∉ S) (hu : u ∉ S.image g) (h : (agree S g).Nonempty) :
    (agree (insert x S) (Function.update g x u)).Nonempty := by
  obtain ⟨σ, h⟩ := h
  exact ⟨_, swap_mem hx hu ((mem_agree_insert hx (u := σ x)).2 ⟨h, rfl⟩)⟩

end permutations

attribute [local irreducible] among agree

theorem run_among {S : Finset Block} {g : Block → Block} (x : Block) (hx : x ∈ S) (next : Block → Distinguisher) :
    (among S g fun σ => (Distinguisher.query x next).run σ) = among S g fun σ => (next (g x)).run σ := by
  unfold among
  congr 1
  refine Finset.sum_congr rfl fun σ h => ?_
  exact congrArg (fun y => (next y).run σ) (mem_agree.1 h x hx)

theorem permutation_close (d : Distinguisher) (n : Nat) (hd : d.Within n) (S : Finset Block) (g : Block → Block) (hne : (agree S g).Nonempty) :
    |(among S g fun σ => d.run σ) - avg fun f => d.run (patch S g f)| ≤ collide S.card n := by
  induction d generalizing n S g with
  | answer yes =>
    have hc : ((agree S g).card : ℚ) ≠ 0 := by exact_mod_cast (Finset.card_pos.2 hne).ne'
    simp only [among, Distinguisher.run, avg_const, Finset.sum_const, nsmul_eq_mul]
    rw [mul_div_cancel_left₀ _ hc, sub_self, abs_zero]
    exact collide_nonneg _ _
  | random next ih =>
    have e1 : (among S g fun σ => (Distinguisher.random next).run σ) = avg fun u => among S g fun σ => (next u).run σ := by
      simp only [among, Distinguisher.run]
      unfold avg
      simp only [Finset.sum_div]
      rw [Finset.sum_comm]
      refine Finset.sum_congr rfl fun u _ => Finset.sum_congr rfl fun σ _ => ?_
      rw [div_right_comm]
    have e2 : (avg fun f => (Distinguisher.random next).run (patch S g f)) = avg fun u => avg fun f => (next u).run (patch S g f) := by
      simp only [Distinguisher.run]
      rw [avg_comm]
    rw [e1, e2]
    refine (avg_close (fun _ => collide S.card n) fun u => ih u n (hd u) S g hne).trans ?_
    rw [avg_const]
  | query x next ih =>
    obtain ⟨hn, hw⟩ := hd
    by_cases hx : x ∈ S
    · rw [run_among x hx]
      have e : (avg fun f => (Distinguisher.query x next).run (patch S g f)) = avg fun f => (next (g x)).run (patch S g f) := by
        refine congrArg avg (funext fun f => ?_)
        rw [Distinguisher.run, patch, if_pos hx]
      rw [e]
      exact (ih _ _ (hw _) S g hne).trans (collide_le le_rfl (by omega))
    · have hrun : ∀ u, (among (insert x S) (Function.update g x u) fun σ => (Distinguisher.query x next).run σ) =
          among (insert x S) (Function.update g x u) fun σ => (next u).run σ := fun u => by
        rw [run_among x (Finset.mem_insert_self _ _), Function.update_self]
      have hstep := among_step (g := g) hx fun σ => (Distinguisher.query x next).run σ
      rw [Finset.sum_congr rfl fun u _ => hrun u] at hstep
      have hR : (avg fun f => (Distinguisher.query x next).run (patch S g f)) =
          avg fun u : Block => avg fun f => (next u).run (patch (insert x S) (Function.update g x u) f) := by
        rw [resample hx g fun f => (Distinguisher.query x next).run f]
        refine congrArg avg (funext fun u => congrArg avg (funext fun f => ?_))
        rw [Distinguisher.run]
        simp [patch]
      rw [hR]
      generalize hA : (among S g fun σ => (Distinguisher.query x next).run σ) = A at *
      have hA0 : 0 ≤ A := hA ▸ among_nonneg S g fun σ => run_nonneg _ _
      have hA1 : A ≤ 1 := hA ▸ among_le_one S g fun σ => run_le_one _ _
      have e : A = avg fun u : Block => if u ∈ (S.image g)ᶜ then among (insert x S) (Function.update g x u) fun σ => (next u).run σ else A := by
        have hN : (Fintype.card Block : ℚ) ≠ 0 := by exact_mod_cast Fintype.card_ne_zero
        unfold avg
        rw [eq_div_iff hN, Finset.sum_ite, Finset.filter_mem_eq_inter, Finset.univ_inter, ← hstep, Finset.sum_const, nsmul_eq_mul]
        have : (Finset.filter (fun u => u ∉ (S.image g)ᶜ) Finset.univ) = S.image g := by ext u; simp
        rw [this, ← add_mul, mul_comm, ← Finset.card_compl_add_card (S.image g)]
        push_cast
        ring
      have hclose := avg_close (f := fun u : Block => if u ∈ (S.image g)ᶜ then among (insert x S) (Function.update g x u) fun σ => (next u).run σ else A)
        (g := fun u : Block => avg fun f => (next u).run (patch (insert x S) (Function.update g x u) f))
        (fun u => (if u ∈ S.image g then 1 else 0) + collide (S.card + 1) (n - 1)) fun u => by
          have hc := collide_nonneg (S.card + 1) (n - 1)
          by_cases hu : u ∈ S.image g
          · simp only [Finset.mem_compl, hu, not_true_eq_false, if_false, if_true]
            refine (abs_sub_le_one hA0 hA1 (avg_nonneg fun f => run_nonneg _ _) (avg_le_one fun f => run_le_one _ _)).trans ?_
            linarith
          · simp only [Finset.mem_compl, hu, not_false_eq_true, if_false, if_true, zero_add]
            refine (ih u _ (hw u) _ _ (agree_nonempty hx hu hne)).trans (le_of_eq ?_)
            rw [Finset.card_insert_of_notMem hx]
      rw [← e] at hclose
      refine hclose.trans (le_of_eq ?_)
      rw [avg_add, avg_const, avg_mem_card, image_card hne]
      obtain ⟨m, rfl⟩ : ∃ m, n = m + 1 := ⟨n - 1, by omega⟩
      rw [Nat.add_sub_cancel, collide_succ]

/-- A distinguisher with `n` questions, given a random permutation or a random function. -/
theorem random_permutation (d : Distinguisher) (n : Nat) (hd : d.Within n) :
    |(avg fun σ : Equiv.Perm Block => d.run σ) - avg fun f : Block → Block => d.run f| ≤ n * (n - 1) / 2 ^ 129 := by
  have hu : agree (∅ : Finset Block) id = Finset.univ := by ext σ; simp [mem_agree]
  have h := permutation_close d n hd ∅ id (by rw [hu]; exact Finset.univ_nonempty)
  rw [Finset.card_empty, collide_zero, N_eq, among, hu] at h
  have e : (n * (n - 1) / 2 : ℚ) / 2 ^ 128 = n * (n - 1) / 2 ^ 129 := by ring
  rw [e] at h
  refine le_of_eq_of_le ?_ h
  unfold avg
  congr 2

end Spec.Games
