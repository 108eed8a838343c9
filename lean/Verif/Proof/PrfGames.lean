import Verif.Spec.PrfGames
import Verif.Proof.KeyGames

/-!
HMAC looks random if the compression function does: the steps of the argument.
-/

namespace Spec.PrfGames
open Spec Spec.KeyGames
open Spec.Games (avg avg_const avg_comm avg_sub avg_add avg_mono avg_abs avg_close avg_nonneg avg_le_one avg_mem_card abs_sub_le_one)

attribute [local irreducible] avg

theorem against_nonneg {α : Type} [Fintype α] (f : α → List Byte → Digest) (d : Distinguisher) : 0 ≤ against f d := abs_nonneg _

theorem against_le {α : Type} [Fintype α] (f : α → List Byte → Digest) (d : Distinguisher) :
    (avg fun a => d.run (f a)) ≤ d.random [] + against f d := by
  have := le_abs_self ((avg fun a => d.run (f a)) - d.random [])
  rw [against]
  linarith

theorem run_nonneg (f : List Byte → Digest) (d : Distinguisher) : 0 ≤ d.run f := by
  induction d with
  | answer yes => rw [Distinguisher.run]; split <;> norm_num
  | query x next ih => exact ih _

theorem run_le_one (f : List Byte → Digest) (d : Distinguisher) : d.run f ≤ 1 := by
  induction d with
  | answer yes => rw [Distinguisher.run]; split <;> norm_num
  | query x next ih => exact ih _

/-- The probability that a random digest is a given one. -/
abbrev one : ℚ := 1 / 2 ^ 256

theorem avg_hits (t : Digest) : (avg fun u : Digest => if u = t then (1 : ℚ) else 0) = one := by
  have h := avg_mem_card ({t} : Finset Digest)
  simp only [Finset.mem_singleton, Finset.card_singleton, card_digest, Spec.Games.N_eq] at h
  rw [h, one]
  norm_num

theorem avg_hits' (t : Digest) : (avg fun u : Digest => if t = u then (1 : ℚ) else 0) = one := by
  rw [← avg_hits t]
  refine congrArg avg (funext fun u => ?_)
  simp only [eq_comm]

theorem reachLoss_nonneg (xs : List (List Byte)) (t : Digest) : 0 ≤ reachLoss xs t := by
  induction xs with
  | nil => exact le_rfl
  | cons x xs ih => exact add_nonneg (against_nonneg _ _) ih

theorem loss_nonneg (xs ys : List (List Byte)) : 0 ≤ loss xs ys := by
  induction xs generalizing ys with
  | nil => cases ys with
    | nil => exact le_rfl
    | cons y ys => exact against_nonneg _ _
  | cons x xs ih => cases ys with
    | nil => exact against_nonneg _ _
    | cons y ys =>
      rw [loss]
      split
      · exact add_nonneg (against_nonneg _ _) (ih _)
      · exact add_nonneg (against_nonneg _ _) (avg_nonneg fun z => reachLoss_nonneg _ _)

/-- A random chaining value leads to `t` about as often as to any other value. -/
theorem reach_le (xs : List (List Byte)) (t : Digest) :
    (avg fun k : Digest => if cascade k xs = t then (1 : ℚ) else 0) ≤ one + reachLoss xs t := by
  induction xs with
  | nil =>
    rw [reachLoss, add_zero]
    exact (avg_hits t).le
  | cons x xs ih =>
    have h := against_le compression (reach x xs t)
    simp only [reach, Distinguisher.run, Distinguisher.random, List.lookup_nil, decide_eq_true_eq] at h
    rw [reachLoss, reach]
    calc _ ≤ _ := h
      _ ≤ _ := by linarith

theorem other_ne (x : List Byte) : other x ≠ x := by
  rw [other]
  split
  · rename_i h
    rw [h]
    decide
  · rename_i h
    exact fun e => h e.symm

/-- A random chaining value leads to itself seldom. -/
theorem itself_le (x : List Byte) (xs : List (List Byte)) :
    (avg fun k : Digest => if cascade k (x :: xs) = k then (1 : ℚ) else 0) ≤ one + against compression (itself x xs) := by
  have h := against_le compression (itself x xs)
  have e : (itself x xs).random [] = one := by
    simp only [itself, Distinguisher.random, List.lookup_nil, decide_eq_true_eq]
    have h1 : ∀ u : Digest, List.lookup (other x) [(x, u)] = none := fun u => by
      rw [List.lookup_eq_none_iff]
      simp [other_ne x]
    simp only [h1, avg_hits]
    exact avg_const _
  rw [e] at h
  refine le_trans (avg_mono fun k => ?_) h
  simp only [itself, Distinguisher.run, decide_eq_true_eq]
  split
  · rename_i hk
    rw [if_pos]
    change cascade (compression k x) xs = k at hk
    rw [hk]
  · split <;> norm_num

/-- Two different sequences of blocks seldom lead to the same value from a random chaining value. -/
theorem loss_le (xs ys : List (List Byte)) (hne : xs ≠ ys) :
    (avg fun k : Digest => if cascade k xs = cascade k ys then (1 : ℚ) else 0) ≤ one + loss xs ys := by
  induction xs generalizing ys with
  | nil => cases ys with
    | nil => exact absurd rfl hne
    | cons y ys =>
      have h := itself_le y ys
      simp only [eq_comm (a := cascade _ (y :: ys))] at h
      exact h
  | cons x xs ih => cases ys with
    | nil => exact itself_le x xs
    | cons y ys =>
      rw [loss]
      split
      · rename_i hxy
        subst hxy
        have h := against_le compression (same x xs ys)
        simp only [same, Distinguisher.run, Distinguisher.random, List.lookup_nil, decide_eq_true_eq] at h
        have h2 := ih ys (fun e => hne (by rw [e]))
        rw [same]
        calc _ ≤ _ := h
          _ ≤ _ := by linarith
      · rename_i hxy
        have h := against_le compression (differ x y xs ys)
        have e : (differ x y xs ys).random [] = avg fun z : Digest => avg fun u : Digest => if cascade u xs = cascade z ys then (1 : ℚ) else 0 := by
          simp only [differ, Distinguisher.random, List.lookup_nil, decide_eq_true_eq]
          have h1 : ∀ u : Digest, List.lookup y [(x, u)] = none := fun u => by
            rw [List.lookup_eq_none_iff]
            simpa using fun e : y = x => hxy e.symm
          simp only [h1]
          exact avg_comm _
        rw [e] at h
        have h2 := (avg_mono fun z : Digest => reach_le xs (cascade z ys)).trans (avg_add _ _).le
        rw [avg_const] at h2
        have h3 : (avg fun a => (differ x y xs ys).run (compression a)) =
            avg fun k : Digest => if cascade k (x :: xs) = cascade k (y :: ys) then (1 : ℚ) else 0 := by
          simp only [differ, Distinguisher.run, decide_eq_true_eq]
          rfl
        rw [h3] at h
        linarith

/-! ### The outer function is random -/

theorem through_run (g : List Byte → List Byte) (f : List Byte → Digest) (d : Distinguisher) :
    (through g d).run f = d.run fun m => f (g m) := by
  induction d with
  | answer yes => rfl
  | query x next ih => exact ih _

theorem pairs_nonneg {w : List Byte → List Byte → ℚ} (hw : ∀ m m', 0 ≤ w m m') (known : List (List Byte × Digest)) (d : Distinguisher) :
    0 ≤ pairs w known d := by
  induction d generalizing known with
  | answer yes => exact le_rfl
  | query x next ih =>
    rw [pairs]
    split
    · exact ih _ _
    · refine add_nonneg (List.sum_nonneg fun a ha => ?_) (avg_nonneg fun y => ih _ _)
      obtain ⟨p, -, rfl⟩ := List.mem_map.1 ha
      exact hw _ _

/-- A random function after `g` differs from a random function only when `g` takes a value twice. -/
theorem through_close (g : List Byte → List Byte) (d : Distinguisher) (known : List (List Byte × Digest))
    (hg : ∀ p ∈ known, ∀ q ∈ known, g p.1 = g q.1 → p.1 = q.1) :
    |(through g d).random (known.map fun p => (g p.1, p.2)) - d.random known| ≤
      pairs (fun m m' => if g m = g m' then (1 : ℚ) else 0) known d := by
  induction d generalizing known with
  | answer yes => simp [through, Distinguisher.random, pairs]
  | query x next ih =>
    have hmap : ∀ l : List (List Byte × Digest), (∀ p ∈ l, g p.1 = g x → p.1 = x) →
        (l.map fun p => (g p.1, p.2)).lookup (g x) = l.lookup x := by
      intro l hl
      induction l with
      | nil => rfl
      | cons p l ih' =>
        obtain ⟨m, y⟩ := p
        simp only [List.map_cons, List.lookup_cons]
        by_cases h : x = m
        · subst h
          simp
        · have h' : g x ≠ g m := fun e => h (hl (m, y) (by simp) e.symm).symm
          rw [beq_false_of_ne h, beq_false_of_ne h']
          exact ih' fun p hp => hl p (by simp [hp])
    rw [pairs]
    split
    · rename_i y hy
      have hx : ∃ p ∈ known, p.1 = x := by
        by_contra hn
        push Not at hn
        rw [lookup_none hn] at hy
        cases hy
      obtain ⟨p, hp, rfl⟩ := hx
      rw [through, Distinguisher.random, Distinguisher.random, hmap known (fun q hq e => hg q hq p hp e), hy]
      exact ih y known hg
    · rename_i hy
      by_cases hc : ∃ p ∈ known, g p.1 = g x
      · obtain ⟨p, hp, e⟩ := hc
        refine (abs_sub_le_one (random_nonneg _ _) (random_le_one _ _) (random_nonneg _ _) (random_le_one _ _)).trans ?_
        refine le_trans ?_ (le_add_of_nonneg_right (avg_nonneg fun y => pairs_nonneg (fun m m' => by split <;> norm_num) _ _))
        refine le_trans ?_ (List.single_le_sum (fun a ha => ?_) _ (List.mem_map_of_mem hp))
        · rw [if_pos e]
        · obtain ⟨q, -, rfl⟩ := List.mem_map.1 ha
          split <;> norm_num
      · push Not at hc
        rw [through, Distinguisher.random, Distinguisher.random, hmap known (fun q hq e => absurd e (hc q hq)), hy]
        refine le_trans ?_ (le_add_of_nonneg_left (List.sum_nonneg fun a ha => ?_))
        · refine avg_close _ fun y => ih y ((x, y) :: known) ?_
          intro p hp q hq e
          rcases List.mem_cons.1 hp with rfl | hp <;> rcases List.mem_cons.1 hq with rfl | hq
          · rfl
          · exact absurd e.symm (hc q hq)
          · exact absurd e (hc p hp)
          · exact hg p hp q hq e
        · obtain ⟨q, -, rfl⟩ := List.mem_map.1 ha
          split <;> norm_num

theorem avg_list_sum {α β : Type} [Fintype α] (l : List β) (f : α → β → ℚ) :
    (avg fun a => (l.map (f a)).sum) = (l.map fun b => avg fun a => f a b).sum := by
  induction l with
  | nil =>
    simp only [List.map_nil, List.sum_nil]
    rw [avg]
    simp
  | cons b l ih =>
    simp only [List.map_cons, List.sum_cons]
    rw [avg_add, ih]

theorem avg_pairs {α : Type} [Fintype α] (w : α → List Byte → List Byte → ℚ) (d : Distinguisher) (known : List (List Byte × Digest)) :
    (avg fun a => pairs (w a) known d) = pairs (fun m m' => avg fun a => w a m m') known d := by
  induction d generalizing known with
  | answer yes =>
    simp only [pairs]
    rw [avg]
    simp
  | query x next ih =>
    simp only [pairs]
    split
    · exact ih _ _
    · rw [avg_add, avg_list_sum, avg_comm]
      simp only [ih]

theorem pairs_mono {ok : List Byte → Prop} {w w' : List Byte → List Byte → ℚ} (h : ∀ m m', ok m → ok m' → m ≠ m' → w m m' ≤ w' m m')
    (d : Distinguisher) (n : Nat) (hd : Asks ok n d) (known : List (List Byte × Digest)) (hk : ∀ p ∈ known, ok p.1) :
    pairs w known d ≤ pairs w' known d := by
  induction d generalizing n known with
  | answer yes => exact le_rfl
  | query x next ih =>
    obtain ⟨hx, -, hn⟩ := hd
    rw [pairs, pairs]
    split
    · exact ih _ _ (hn _) _ hk
    · rename_i hl
      refine add_le_add (List.sum_le_sum fun p hp => h _ _ (hk p hp) hx ?_) (avg_mono fun y => ih _ _ (hn _) _ ?_)
      · rintro rfl
        rw [List.lookup_eq_none_iff] at hl
        exact absurd (hl p hp) (by simp)
      · intro p hp
        rcases List.mem_cons.1 hp with rfl | hp
        · exact hx
        · exact hk p hp

theorem pairs_const_add (c : ℚ) (hc : 0 ≤ c) {ok : List Byte → Prop} (w : List Byte → List Byte → ℚ) (d : Distinguisher) (n : Nat)
    (hd : Asks ok n d) (known : List (List Byte × Digest)) :
    pairs (fun m m' => c + w m m') known d ≤ (∑ i ∈ Finset.range n, ((known.length : ℚ) + i)) * c + pairs w known d := by
  induction d generalizing n known with
  | answer yes =>
    simp only [pairs, add_zero]
    exact mul_nonneg (Finset.sum_nonneg fun i _ => by positivity) hc
  | query x next ih =>
    obtain ⟨-, hn, hd⟩ := hd
    rw [pairs, pairs]
    split
    · refine (ih _ (n - 1) (hd _) known).trans (add_le_add ?_ le_rfl)
      refine mul_le_mul_of_nonneg_right ?_ hc
      exact Finset.sum_le_sum_of_subset_of_nonneg (Finset.range_mono (Nat.sub_le _ _)) fun i _ _ => by positivity
    · have e : (known.map fun p => c + w p.1 x).sum = known.length * c + (known.map fun p => w p.1 x).sum := by
        rw [List.sum_map_add]
        simp
      have h := avg_mono fun y : Digest => ih y (n - 1) (hd y) ((x, y) :: known)
      simp only [List.length_cons] at h
      rw [avg_add, avg_const] at h
      have e2 : (∑ i ∈ Finset.range n, ((known.length : ℚ) + i)) = known.length + ∑ i ∈ Finset.range (n - 1), (((known.length + 1 : Nat) : ℚ) + i) := by
        obtain ⟨k, rfl⟩ : ∃ k, n = k + 1 := ⟨n - 1, by omega⟩
        rw [Finset.sum_range_succ', Nat.add_sub_cancel, add_comm]
        congr 1
        · simp
        · refine Finset.sum_congr rfl fun i _ => ?_
          push_cast
          ring
      rw [e, e2, add_mul]
      linarith

theorem pairs_zero (d : Distinguisher) (known : List (List Byte × Digest)) : pairs (fun _ _ => 0) known d = 0 := by
  induction d generalizing known with
  | answer yes => rfl
  | query x next ih =>
    rw [pairs]
    split
    · exact ih _ _
    · simp only [ih, avg_const]
      simp

theorem sum_nil (n : Nat) (c : ℚ) : (∑ i ∈ Finset.range n, ((([] : List (List Byte × Digest)).length : ℚ) + i)) * c = n * (n - 1) / 2 * c := by
  congr 1
  induction n with
  | zero => simp
  | succ n ih => rw [Finset.sum_range_succ, ih]; push_cast; simp only [List.length_nil, Nat.cast_zero]; ring

/-- HMAC after the key looks random if the compression function does. -/
theorem nested_le {ok : List Byte → Prop} (hok : ∀ m m', ok m → ok m' → blocksAfter m = blocksAfter m' → m = m')
    (hlast : ∀ a b, lastBlock a = lastBlock b → a = b) (d : Distinguisher) (n : Nat) (hd : Asks ok n d) :
    |(avg fun k => avg fun k' => d.run (nested k k')) - d.random []| ≤
      (avg fun k => against compression (outer k d)) + (n * (n - 1) / 2 * one + pairs (fun m m' => loss (blocksAfter m) (blocksAfter m')) [] d) := by
  have h1 : |(avg fun k => avg fun k' => d.run (nested k k')) - avg fun k => (outer k d).random []| ≤ avg fun k => against compression (outer k d) := by
    refine avg_close _ fun k => ?_
    rw [against]
    simp only [outer, through_run]
    exact le_rfl
  have h2 : |(avg fun k => (outer k d).random []) - d.random []| ≤ avg fun k =>
      pairs (fun m m' => if lastBlock (cascade k (blocksAfter m)) = lastBlock (cascade k (blocksAfter m')) then (1 : ℚ) else 0) [] d := by
    have := avg_close (f := fun k => (outer k d).random []) (g := fun _ : Digest => d.random []) _
      fun k => through_close (fun m => lastBlock (cascade k (blocksAfter m))) d [] (by intro p hp; cases hp)
    rwa [avg_const] at this
  have h3 : (avg fun k => pairs (fun m m' => if lastBlock (cascade k (blocksAfter m)) = lastBlock (cascade k (blocksAfter m')) then (1 : ℚ) else 0) [] d)
      ≤ n * (n - 1) / 2 * one + pairs (fun m m' => loss (blocksAfter m) (blocksAfter m')) [] d := by
    rw [avg_pairs]
    refine (pairs_mono (ok := ok) (w' := fun m m' => one + loss (blocksAfter m) (blocksAfter m')) ?_ d n hd [] (by intro p hp; cases hp)).trans ?_
    · intro m m' hm hm' hne
      refine le_trans (le_of_eq ?_) (loss_le _ _ fun e => hne (hok m m' hm hm' e))
      refine congrArg avg (funext fun k => ?_)
      have : lastBlock (cascade k (blocksAfter m)) = lastBlock (cascade k (blocksAfter m')) ↔ cascade k (blocksAfter m) = cascade k (blocksAfter m') :=
        ⟨fun e => hlast _ _ e, fun e => by rw [e]⟩
      simp only [this]
    · refine (pairs_const_add one (by rw [one]; positivity) _ d n hd []).trans (add_le_add (le_of_eq ?_) le_rfl)
      exact sum_nil n one
  exact (abs_sub_le _ _ _).trans (add_le_add h1 (h2.trans h3))

end Spec.PrfGames
