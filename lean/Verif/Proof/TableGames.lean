import Verif.Spec.TableGames
import Verif.Proof.Games
import Mathlib.Algebra.Order.Chebyshev
import Mathlib.Data.Nat.Choose.Basic
import Mathlib.Tactic.Ring
import Mathlib.Tactic.Positivity
import Mathlib.Tactic.GCongr
import Mathlib.Tactic.Linarith

/-!
What it costs not to keep the table of scryptROMix, when scryptBlockMix is a random function. All entries are looked for at the same time, step
by step. If an entry is used before the entry in front of it was put into the function, then this is a hit: a value drawn later is one that has
been used before. Hits are rare, so there are few of them, and every entry that is found is found from the last hit in front of it.
-/

namespace Spec.TableGames
open Spec Spec.Games

attribute [local irreducible] avg
set_option linter.constructorNameAsVariable false

variable {E : Type} [Fintype E] [DecidableEq E]

/-! ### Hits -/

/-- Values of a function that are looked at, one after the other, and sets that they may hit. -/
inductive Tree (E : Type) where
  | done
  | draw (x : E) (S : Finset E) (next : E → Tree E)

/-- The number of values that hit the set, the value at each place being counted once; those in `K` have been looked at. -/
def Tree.hits (f : E → E) : (K : Finset E) → Tree E → Nat
  | _, .done => 0
  | K, .draw x S next => (if x ∉ K ∧ f x ∈ S then 1 else 0) + (next (f x)).hits f (insert x K)

/-- At most `m` values, and at most `s` elements in each set. -/
def Tree.Within : (m s : Nat) → Tree E → Prop
  | _, _, .done => True
  | m, s, .draw _ S next => 1 ≤ m ∧ S.card ≤ s ∧ ∀ y, (next y).Within (m - 1) s

/-- The function `f`, except that its values on `K` are those of `g`. -/
def patched (K : Finset E) (g f : E → E) (x : E) : E := if x ∈ K then g x else f x

theorem avg_updated [Nonempty E] (x : E) (F : (E → E) → ℚ) : (avg fun u : E => avg fun f : E → E => F (Function.update f x u)) = avg F := by
  let e : (E × (E → E)) ≃ (E × (E → E)) :=
    { toFun := fun p => (p.2 x, Function.update p.2 x p.1)
      invFun := fun p => (p.2 x, Function.update p.2 x p.1)
      left_inv := by rintro ⟨u, f⟩; simp
      right_inv := by rintro ⟨u, f⟩; simp }
  have h := avg_equiv e fun p => F p.2
  rw [avg_prod, avg_prod] at h
  exact h.trans (avg_const (α := E) (avg F))

omit [Fintype E] in
theorem patched_update {K : Finset E} {x : E} (hx : x ∉ K) (g f : E → E) (u : E) :
    patched K g (Function.update f x u) = patched (insert x K) (Function.update g x u) f := by
  funext y
  by_cases h : y = x
  · subst h
    simp [patched, hx]
  · simp [patched, h]

theorem avg_choose [Nonempty E] (t : Tree E) (m s p : Nat) (ht : t.Within m s) (K : Finset E) (g : E → E) :
    (avg fun f : E → E => ((t.hits (patched K g f) K).choose p : ℚ)) ≤ ((m : ℚ) * s / Fintype.card E) ^ p := by
  have hc : (0 : ℚ) < Fintype.card E := by exact_mod_cast Fintype.card_pos
  induction t generalizing m p K g with
  | done =>
    simp only [Tree.hits, avg_const]
    cases p with
    | zero => simp
    | succ p =>
      rw [Nat.choose_zero_succ, Nat.cast_zero]
      positivity
  | draw x S next ih =>
    obtain ⟨hm, hS, hn⟩ := ht
    have hmono (p : Nat) : (((m - 1 : Nat) : ℚ) * s / Fintype.card E) ^ p ≤ ((m : ℚ) * s / Fintype.card E) ^ p := by
      have : ((m - 1 : Nat) : ℚ) ≤ m := by exact_mod_cast Nat.sub_le m 1
      gcongr
    by_cases hx : x ∈ K
    · have e (f : E → E) : (Tree.draw x S next).hits (patched K g f) K = (next (g x)).hits (patched K g f) K := by
        rw [Tree.hits, if_neg fun h => h.1 hx, Finset.insert_eq_of_mem hx, zero_add, show patched K g f x = g x from if_pos hx]
      simp only [e]
      exact (ih _ _ p (hn _) K g).trans (hmono p)
    · rw [← avg_updated x]
      have e (u : E) (f : E → E) : (Tree.draw x S next).hits (patched K g (Function.update f x u)) K =
          (if u ∈ S then 1 else 0) + (next u).hits (patched (insert x K) (Function.update g x u) f) (insert x K) := by
        have h1 : patched K g (Function.update f x u) x = u := by simp [patched, hx]
        rw [Tree.hits, h1, patched_update hx]
        simp [hx]
      simp only [e]
      cases p with
      | zero =>
        simp only [Nat.choose_zero_right, Nat.cast_one, avg_const, pow_zero]
        exact le_rfl
      | succ p =>
        let A : ℚ := ((m - 1 : Nat) : ℚ) * s / Fintype.card E
        have hA : 0 ≤ A := by positivity
        have h1 (u : E) : (avg fun f : E → E =>
            (((if u ∈ S then 1 else 0) + (next u).hits (patched (insert x K) (Function.update g x u) f) (insert x K)).choose (p + 1) : ℚ)) ≤
              A ^ (p + 1) + (if u ∈ S then (1 : ℚ) else 0) * A ^ p := by
          have i1 := ih u (m - 1) (p + 1) (hn u) (insert x K) (Function.update g x u)
          by_cases hu : u ∈ S
          · have i2 := ih u (m - 1) p (hn u) (insert x K) (Function.update g x u)
            simp only [if_pos hu, Nat.add_comm 1, Nat.choose_succ_succ, Nat.cast_add, one_mul]
            rw [avg_add, add_comm]
            exact add_le_add i1 i2
          · simp only [if_neg hu, zero_add, zero_mul, add_zero]
            exact i1
        refine (avg_mono h1).trans ?_
        have e2 : (fun u : E => A ^ (p + 1) + (if u ∈ S then (1 : ℚ) else 0) * A ^ p) = fun u => A ^ (p + 1) + A ^ p * (if u ∈ S then (1 : ℚ) else 0) := by
          funext u
          rw [mul_comm]
        have e3 : (avg fun u : E => A ^ p * (if u ∈ S then (1 : ℚ) else 0)) = A ^ p * (S.card / Fintype.card E) := by
          rw [← avg_mem_card S, avg, avg, ← Finset.mul_sum, mul_div_assoc]
        rw [e2, avg_add, avg_const, e3]
        have hS' : (S.card : ℚ) / Fintype.card E ≤ s / Fintype.card E := by
          have : (S.card : ℚ) ≤ s := by exact_mod_cast hS
          gcongr
        have hAm : A + s / Fintype.card E = (m : ℚ) * s / Fintype.card E := by
          have : ((m - 1 : Nat) : ℚ) = m - 1 := by rw [Nat.cast_sub hm, Nat.cast_one]
          simp only [A, this]
          ring
        calc A ^ (p + 1) + A ^ p * (S.card / Fintype.card E) ≤ A ^ (p + 1) + A ^ p * (s / Fintype.card E) := by gcongr
          _ = A ^ p * (A + s / Fintype.card E) := by ring
          _ ≤ (A + s / Fintype.card E) ^ p * (A + s / Fintype.card E) := by
              gcongr
              exact le_add_of_nonneg_right (by positivity)
          _ = _ := by rw [← pow_succ, hAm]

/-- Many hits are unlikely. -/
theorem avg_hits [Nonempty E] (t : Tree E) (m s p : Nat) (ht : t.Within m s) :
    (avg fun f : E → E => if p ≤ t.hits f ∅ then (1 : ℚ) else 0) ≤ ((m : ℚ) * s / Fintype.card E) ^ p := by
  have h := avg_choose t m s p ht ∅ id
  have e (f : E → E) : patched ∅ id f = f := by funext x; simp [patched]
  simp only [e] at h
  refine (avg_mono fun f => ?_).trans h
  split_ifs with hp
  · exact_mod_cast Nat.choose_pos hp
  · positivity

/-- The value at `x` hits the set when it is looked at first. -/
def Tree.Hit (f : E → E) (x : E) : Tree E → Prop
  | .done => False
  | .draw x' S next => if x' = x then f x ∈ S else (next (f x')).Hit f x

omit [Fintype E] in
theorem le_hits (f : E → E) (t : Tree E) (K X : Finset E) (hK : Disjoint X K) (hX : ∀ x ∈ X, t.Hit f x) : X.card ≤ t.hits f K := by
  induction t generalizing K X with
  | done =>
    rw [Finset.card_eq_zero.2 (Finset.eq_empty_of_forall_notMem fun x hx => hX x hx)]
    exact Nat.zero_le _
  | draw x S next ih =>
    have h := ih (f x) (insert x K) (X.erase x) (by
      rw [Finset.disjoint_insert_right]
      exact ⟨Finset.notMem_erase _ _, hK.mono_left (Finset.erase_subset _ _)⟩) fun y hy => by
      have := hX y (Finset.mem_of_mem_erase hy)
      rwa [Tree.Hit, if_neg (Finset.ne_of_mem_erase hy).symm] at this
    rw [Tree.hits]
    by_cases hx : x ∈ X
    · have h1 := hX x hx
      rw [Tree.Hit, if_pos rfl] at h1
      rw [if_pos ⟨Finset.disjoint_left.1 hK hx, h1⟩]
      rw [Finset.card_erase_of_mem hx] at h
      omega
    · rw [Finset.erase_eq_of_notMem hx] at h
      omega

/-! ### All entries at the same time -/

/-- An algorithm that makes `w` evaluations of a function at a time, and at the same time names elements, one with each evaluation and one at the
end. -/
inductive Search (w : Nat) (E : Type) where
  | stop (c : E)
  | eval (x c : Fin w → E) (next : (Fin w → E) → Search w E)

variable {w : Nat}

/-- What a search evaluates next, and what it names. -/
def shown : Search w E → List E
  | .stop c => [c]
  | .eval x c _ => List.ofFn x ++ List.ofFn c

/-- What the searches evaluate next. -/
def asked (as : List (Search w E)) : List E := as.flatMap fun
  | .stop _ => []
  | .eval x _ _ => List.ofFn x

/-- One step. -/
def step (f : E → E) : Search w E → Search w E
  | .stop c => .stop c
  | .eval x _ next => next fun i => f (x i)

/-- Several values, one after the other. -/
def draws (S : Finset E) : (w : Nat) → (x : Fin w → E) → (k : (Fin w → E) → Tree E) → Tree E
  | 0, _, k => k Fin.elim0
  | w + 1, x, k => .draw (x 0) S fun y => draws S w (fun i => x i.succ) fun ys => k (Fin.cons y ys)

/-- Every search goes on by one step. -/
def turn (k : List (Search w E) → Tree E) (S : Finset E) : (front todo : List (Search w E)) → Tree E
  | front, [] => k front
  | front, .stop c :: todo => turn k S (front ++ [.stop c]) todo
  | front, .eval x _ next :: todo => draws S w x fun y => turn k S (front ++ [next y]) todo

/-- At the end, all entries: `n` of them from `v` on. -/
def entries (S : Finset E) : (n : Nat) → (v : E) → Tree E
  | 0, _ => .done
  | n + 1, v => .draw v S fun y => entries S n y

/-- `n` turns, and then all entries. -/
def turns (N : Nat) (B : E) : (n : Nat) → (as : List (Search w E)) → (S : Finset E) → Tree E
  | 0, as, S => entries (S ∪ (as.flatMap shown).toFinset) N B
  | n + 1, as, S => turn (fun as' => turns N B n as' (S ∪ (as.flatMap shown).toFinset)) (S ∪ (as.flatMap shown).toFinset) [] as

omit [Fintype E] [DecidableEq E] in
theorem entries_within (S : Finset E) (s n : Nat) (v : E) (hS : S.card ≤ s) : (entries S n v).Within n s := by
  induction n generalizing v with
  | zero => trivial
  | succ n ih => exact ⟨by omega, hS, fun y => ih y⟩

omit [Fintype E] [DecidableEq E] in
theorem within_mono' {s : Nat} (t : Tree E) : ∀ {m m'}, m ≤ m' → t.Within m s → t.Within m' s := by
  induction t with
  | done => exact fun _ _ => trivial
  | draw x S next ih => exact fun h h' => ⟨h'.1.trans h, h'.2.1, fun y => ih y (by omega) (h'.2.2 y)⟩

omit [Fintype E] [DecidableEq E] in
theorem draws_within (S : Finset E) (m s : Nat) (hS : S.card ≤ s) (w : Nat) (x : Fin w → E) (k : (Fin w → E) → Tree E)
    (hk : ∀ y, (k y).Within m s) : (draws S w x k).Within (w + m) s := by
  induction w with
  | zero =>
    rw [draws, Nat.zero_add]
    exact hk _
  | succ w ih =>
    refine ⟨by omega, hS, fun y => ?_⟩
    rw [show w + 1 + m - 1 = w + m by omega]
    exact ih _ _ fun ys => hk _

omit [Fintype E] [DecidableEq E] in
theorem turn_within (k : List (Search w E) → Tree E) (S : Finset E) (m s : Nat) (hS : S.card ≤ s) (front todo : List (Search w E))
    (hk : ∀ as, as.length = front.length + todo.length → (k as).Within m s) : (turn k S front todo).Within (w * todo.length + m) s := by
  induction todo generalizing front with
  | nil => simpa [turn] using hk front (by simp)
  | cons a todo ih =>
    cases a with
    | stop c =>
      rw [turn]
      refine within_mono' _ ?_ (ih (front ++ [.stop c]) fun as h => hk as (by simp at h ⊢; omega))
      rw [List.length_cons, Nat.mul_add]
      omega
    | eval x c next =>
      rw [turn, List.length_cons, Nat.mul_add, Nat.mul_one, show w * todo.length + w + m = w + (w * todo.length + m) by omega]
      exact draws_within S _ s hS w x _ fun y => ih (front ++ [next y]) fun as h => hk as (by simp at h ⊢; omega)

omit [Fintype E] in
theorem turns_within (hw : 1 ≤ w) (N : Nat) (B : E) (n s : Nat) (as : List (Search w E)) (S : Finset E) (ha : as.length = N)
    (hs : S.card + 2 * (w * N) * (n + 1) ≤ s) : (turns N B n as S).Within (w * N * (n + 1)) s := by
  have hc (as : List (Search w E)) (S : Finset E) (ha : as.length = N) : (S ∪ (as.flatMap shown).toFinset).card ≤ S.card + 2 * (w * N) := by
    refine (Finset.card_union_le _ _).trans (Nat.add_le_add_left ?_ _)
    refine (List.toFinset_card_le _).trans ?_
    rw [List.length_flatMap, ← ha, ← Nat.mul_assoc, Nat.mul_comm]
    refine (List.sum_le_card_nsmul _ (2 * w) fun n hn => ?_).trans_eq (by simp)
    obtain ⟨a, _, rfl⟩ := List.mem_map.1 hn
    cases a with
    | stop c => rw [shown, List.length_singleton]; omega
    | eval x c next => rw [shown, List.length_append, List.length_ofFn, List.length_ofFn]; omega
  induction n generalizing as S with
  | zero =>
    have := hc as S ha
    rw [turns, Nat.zero_add, Nat.mul_one]
    exact within_mono' _ (Nat.le_mul_of_pos_left _ hw) (entries_within _ _ _ _ (by omega))
  | succ n ih =>
    have h1 := hc as S ha
    rw [Nat.mul_add (2 * (w * N)) (n + 1), Nat.mul_one] at hs
    rw [Nat.mul_add (w * N) (n + 1), Nat.mul_one, Nat.add_comm, turns]
    have := turn_within (fun as' => turns N B n as' (S ∪ (as.flatMap shown).toFinset)) (S ∪ (as.flatMap shown).toFinset) (w * N * (n + 1)) s (by omega)
      [] as fun as' h => ih as' _ (by simpa [ha] using h) (by omega)
    rwa [ha] at this

omit [Fintype E] [DecidableEq E] in
theorem entry_shift (f : E → E) (B : E) (i : Nat) : entry f (f B) i = entry f B (i + 1) := by
  induction i with
  | zero => rfl
  | succ i ih => exact congrArg f ih

omit [Fintype E] in
theorem hit_entries (f : E → E) (S : Finset E) (x : E) (hx : f x ∈ S) (n : Nat) (v : E) (i : Nat) (hi : i < n) (e : entry f v i = x) :
    (entries S n v).Hit f x := by
  induction n generalizing v i with
  | zero => omega
  | succ n ih =>
    rw [entries, Tree.Hit]
    split_ifs with h
    · exact hx
    · cases i with
      | zero => exact (h e).elim
      | succ i =>
        refine ih (f v) i (by omega) ?_
        rw [← e, entry_shift]

omit [Fintype E] in
theorem hit_draws (f : E → E) (x : E) (S : Finset E) (w : Nat) (xs : Fin w → E) (k : (Fin w → E) → Tree E) (hx : f x ∈ S ∨ ∀ i, xs i ≠ x)
    (hk : (k fun i => f (xs i)).Hit f x) : (draws S w xs k).Hit f x := by
  induction w with
  | zero =>
    rw [draws]
    convert hk
  | succ w ih =>
    rw [draws, Tree.Hit]
    split_ifs with h
    · exact hx.elim id fun h' => (h' 0 h).elim
    · refine ih _ _ (hx.imp_right fun h' i => h' i.succ) ?_
      convert hk using 2
      funext i
      refine Fin.cases ?_ (fun i => ?_) i <;> simp

omit [Fintype E] in
theorem hit_turn (f : E → E) (x : E) (k : List (Search w E) → Tree E) (S : Finset E) (front todo : List (Search w E)) (hx : f x ∈ S ∨ x ∉ asked todo)
    (hk : (k (front ++ todo.map (step f))).Hit f x) : (turn k S front todo).Hit f x := by
  induction todo generalizing front with
  | nil => simpa [turn] using hk
  | cons a todo ih =>
    cases a with
    | stop c =>
      rw [turn]
      exact ih _ (hx.imp_right fun h => by simpa [asked] using h) (by simpa [step] using hk)
    | eval x' c next =>
      rw [turn]
      refine hit_draws f x S w x' _ (hx.imp_right fun h i e => h ?_) (ih _ (hx.imp_right fun h h' => h ?_) (by simpa [step] using hk))
      · rw [asked, List.flatMap_cons]
        exact List.mem_append_left _ (List.mem_ofFn.2 ⟨i, e⟩)
      · rw [asked, List.flatMap_cons]
        exact List.mem_append_right _ h'

omit [Fintype E] in
theorem hit_turns (f : E → E) (N : Nat) (B : E) (b : Nat) (hb : b < N) (n k : Nat) (hk : k ≤ n) (as : List (Search w E)) (S : Finset E)
    (hu : f (entry f B b) ∈ (as.map (step f)^[k]).flatMap shown) (ha : ∀ i < k, entry f B b ∉ asked (as.map (step f)^[i])) :
    (turns N B n as S).Hit f (entry f B b) := by
  -- from the time when the set has the value
  have later (n : Nat) : ∀ (as : List (Search w E)) (S : Finset E), f (entry f B b) ∈ S → (turns N B n as S).Hit f (entry f B b) := by
    induction n with
    | zero => exact fun as S h => hit_entries f _ _ (Finset.mem_union_left _ h) N B b hb rfl
    | succ n ih => exact fun as S h => hit_turn f _ _ _ _ _ (.inl (Finset.mem_union_left _ h)) (ih _ _ (Finset.mem_union_left _ h))
  induction k generalizing n as S with
  | zero =>
    have hu' : f (entry f B b) ∈ S ∪ (as.flatMap shown).toFinset := by
      rw [Finset.mem_union, List.mem_toFinset]
      simpa using Or.inr hu
    cases n with
    | zero => exact hit_entries f _ _ hu' N B b hb rfl
    | succ n => exact hit_turn f _ _ _ _ _ (.inl hu') (later n _ _ hu')
  | succ k ih =>
    obtain ⟨n, rfl⟩ : ∃ n', n = n' + 1 := ⟨n - 1, by omega⟩
    refine hit_turn f _ _ _ _ _ (.inr (by simpa using ha 0 (by omega))) (ih n (by omega) _ _ ?_ fun i hi => ?_)
    · simpa [Function.iterate_succ] using hu
    · simpa [Function.iterate_succ] using ha (i + 1) (by omega)

/-! ### Where entries come from -/

/-- Entry number `b` is used before the one in front of it has been put into the function. -/
def Predicted (f : E → E) (B : E) (as : List (Search w E)) (q b : Nat) : Prop :=
  ∃ k ≤ q, entry f B b ∈ (as.map (step f)^[k]).flatMap shown ∧ ∀ i < k, entry f B (b - 1) ∉ asked (as.map (step f)^[i])

omit [Fintype E] in
theorem source (f : E → E) (B : E) (as : List (Search w E)) (q k j : Nat) (hk : k ≤ q) (h : entry f B j ∈ (as.map (step f)^[k]).flatMap shown) :
    ∃ b ≤ j, j ≤ b + k ∧ (b = 0 ∨ Predicted f B as q b) := by
  induction k using Nat.strong_induction_on generalizing j with
  | _ k ih =>
    cases j with
    | zero => exact ⟨0, le_rfl, by omega, .inl rfl⟩
    | succ j =>
      by_cases h' : ∀ i < k, entry f B j ∉ asked (as.map (step f)^[i])
      · exact ⟨j + 1, le_rfl, by omega, .inr ⟨k, hk, h, h'⟩⟩
      · push Not at h'
        obtain ⟨i, hi, h'⟩ := h'
        obtain ⟨b, h1, h2, h3⟩ := ih i hi j (by omega) (by
          rw [asked, List.mem_flatMap] at h'
          obtain ⟨a, ha, e⟩ := h'
          refine List.mem_flatMap.2 ⟨a, ha, ?_⟩
          cases a with
          | stop c => simp at e
          | eval x c next => exact List.mem_append_left _ e)
        exact ⟨b, by omega, by omega, h3⟩

theorem sum_distinct (s : Finset Nat) : s.card * s.card ≤ 2 * (∑ x ∈ s, x) + s.card := by
  induction s using Finset.induction_on_max with
  | empty => simp
  | insert a s hs ih =>
    have ha : a ∉ s := fun h => lt_irrefl _ (hs a h)
    have hc : s.card ≤ a := by
      have := Finset.card_le_card (show s ⊆ Finset.range a from fun x hx => Finset.mem_range.2 (hs x hx))
      rwa [Finset.card_range] at this
    rw [Finset.card_insert_of_notMem ha, Finset.sum_insert ha]
    nlinarith

/-- Entries that are found from at most `p` others. -/
theorem spread {N : Nat} (J : Finset (Fin N)) (t : Fin N → Nat) (P : Finset Nat) (p : Nat) (hP : P.card ≤ p)
    (h : ∀ j ∈ J, ∃ b ∈ P, b ≤ j.1 ∧ j.1 ≤ b + t j) : J.card * J.card ≤ p * (2 * (∑ j ∈ J, t j) + J.card) := by
  choose! g hg1 hg2 hg3 using h
  have hsum : ∑ b ∈ P, (J.filter fun j => g j = b).card = J.card := (Finset.card_eq_sum_card_fiberwise fun j hj => hg1 j hj).symm
  have hsum' : ∑ b ∈ P, ∑ j ∈ J.filter (fun j => g j = b), t j = ∑ j ∈ J, t j := Finset.sum_fiberwise_of_maps_to (fun j hj => hg1 j hj) _
  have hb (b : Nat) : (J.filter fun j => g j = b).card * (J.filter fun j => g j = b).card ≤
      2 * (∑ j ∈ J.filter (fun j => g j = b), t j) + (J.filter fun j => g j = b).card := by
    have hinj : Set.InjOn (fun j : Fin N => j.1 - b) (J.filter fun j => g j = b) := by
      intro i hi j hj e
      simp only [Finset.coe_filter, Set.mem_ofPred_eq] at hi hj
      have h1 := hg2 i hi.1
      have h2 := hg2 j hj.1
      simp only at e
      apply Fin.ext
      omega
    have h1 := sum_distinct ((J.filter fun j => g j = b).image fun j => j.1 - b)
    rw [Finset.card_image_of_injOn hinj, Finset.sum_image hinj] at h1
    refine h1.trans (Nat.add_le_add_right (Nat.mul_le_mul_left _ (Finset.sum_le_sum fun j hj => ?_)) _)
    rw [Finset.mem_filter] at hj
    have := hg3 j hj.1
    omega
  calc J.card * J.card = (∑ b ∈ P, (J.filter fun j => g j = b).card) ^ 2 := by rw [hsum, pow_two]
    _ ≤ P.card * ∑ b ∈ P, (J.filter fun j => g j = b).card ^ 2 := sq_sum_le_card_mul_sum_sq
    _ ≤ p * ∑ b ∈ P, (2 * (∑ j ∈ J.filter (fun j => g j = b), t j) + (J.filter fun j => g j = b).card) := by
        gcongr with b _
        rw [pow_two]
        exact hb b
    _ = _ := by rw [Finset.sum_add_distrib, ← Finset.mul_sum, hsum, hsum']

/-! ### Entries that come twice -/

/-- All entries, each with those before it. -/
def again : (n : Nat) → (v : E) → (S : Finset E) → Tree E
  | 0, _, _ => .done
  | n + 1, v, S => .draw v (insert v S) fun y => again n y (insert v S)

omit [Fintype E] in
theorem again_within (n s : Nat) (v : E) (S : Finset E) (h : S.card + n ≤ s) : (again n v S).Within n s := by
  induction n generalizing v S with
  | zero => trivial
  | succ n ih =>
    have := Finset.card_insert_le v S
    exact ⟨by omega, by omega, fun y => ih y _ (by omega)⟩

omit [Fintype E] in
theorem hit_again (f : E → E) (n : Nat) (v : E) (S : Finset E) (i : Nat) (hi : i < n) (h : f (entry f v i) ∈ S ∨ ∃ j ≤ i, f (entry f v i) = entry f v j)
    (hn : ∀ j < i, entry f v j ≠ entry f v i) : (again n v S).Hit f (entry f v i) := by
  induction n generalizing v S i with
  | zero => omega
  | succ n ih =>
    rw [again, Tree.Hit]
    cases i with
    | zero =>
      rw [if_pos (show v = entry f v 0 from rfl)]
      rcases h with h | ⟨j, hj, e⟩
      · exact Finset.mem_insert_of_mem h
      · obtain rfl := Nat.le_zero.1 hj
        rw [e]
        exact Finset.mem_insert_self _ _
    | succ i =>
      rw [if_neg (show v ≠ entry f v (i + 1) from hn 0 (by omega)), ← entry_shift]
      refine ih (f v) _ i (by omega) ?_ fun j hj => ?_
      · rw [entry_shift]
        rcases h with h | ⟨j, hj, e⟩
        · exact .inl (Finset.mem_insert_of_mem h)
        · cases j with
          | zero => exact .inl (e ▸ Finset.mem_insert_self _ _)
          | succ j => exact .inr ⟨j, by omega, by rw [entry_shift]; exact e⟩
      · rw [entry_shift, entry_shift]
        exact hn (j + 1) (by omega)

omit [Fintype E] in
/-- Entries that come twice are a hit. -/
theorem twice (f : E → E) (B : E) (N : Nat) (h : ¬ ∀ i < N, ∀ j < i, entry f B j ≠ entry f B i) : 1 ≤ (again N B ∅).hits f ∅ := by
  classical
  push Not at h
  have hex : ∃ i, i < N ∧ ∃ j < i, entry f B j = entry f B i := by
    obtain ⟨i, hi, j, hj, e⟩ := h
    exact ⟨i, hi, j, hj, e⟩
  obtain ⟨hi, j, hj, e⟩ := Nat.find_spec hex
  have hmin (m : Nat) (hm : m < Nat.find hex) := Nat.find_min hex hm
  obtain ⟨i, hi'⟩ : ∃ i, Nat.find hex = i + 1 := ⟨Nat.find hex - 1, by omega⟩
  rw [hi'] at hi hj e hmin
  have := le_hits f (again N B ∅) ∅ {entry f B i} (Finset.disjoint_empty_right _) fun x hx => by
    rw [Finset.mem_singleton] at hx
    subst hx
    refine hit_again f N B ∅ i (by omega) (.inr ⟨j, by omega, by rw [e]; rfl⟩) fun j' hj' e' => ?_
    exact hmin i (by omega) ⟨by omega, j', hj', e'⟩
  simpa using this

/-- No entry of the table comes twice. -/
def Distinct (f : E → E) (B : E) (N : Nat) : Prop := ∀ i < N, ∀ j < i, entry f B j ≠ entry f B i

theorem avg_twice [Nonempty E] (B : E) (N : Nat) (bad : (E → E) → Prop) [DecidablePred bad] (hbad : ∀ f, bad f → ¬ Distinct f B N) :
    (avg fun f : E → E => if bad f then (1 : ℚ) else 0) ≤ (N : ℚ) * N / Fintype.card E := by
  have := avg_hits (again N B ∅) N N 1 (again_within N N B ∅ (by simp))
  rw [pow_one] at this
  refine (avg_mono fun f => ?_).trans this
  split_ifs with h1 h2 h2
  · exact le_rfl
  · exact (h2 (twice f B N (hbad f h1))).elim
  · exact zero_le_one
  · exact le_rfl

/-! ### The result -/

omit [Fintype E] in
/-- If there are few hits, then all entries are found from a few ones. -/
theorem sources (f : E → E) (B : E) {N q p : Nat} (as : List (Search w E)) (hd : Distinct f B N) (hh : (turns N B q as ∅).hits f ∅ < p) :
    ∃ P : Finset Nat, P.card ≤ p ∧ ∀ j < N, ∀ k ≤ q, entry f B j ∈ (as.map (step f)^[k]).flatMap shown → ∃ b ∈ P, b ≤ j ∧ j ≤ b + k := by
  classical
  let Q := (Finset.range N).filter fun b => 1 ≤ b ∧ Predicted f B as q b
  have hQ : Q.card ≤ (turns N B q as ∅).hits f ∅ := by
    have hinj : Set.InjOn (fun b => entry f B (b - 1)) (Q : Set Nat) := by
      intro i hi j hj e
      simp only [Q, Finset.coe_filter, Finset.mem_range, Set.mem_ofPred_eq] at hi hj
      simp only at e
      rcases lt_trichotomy (i - 1) (j - 1) with h | h | h
      · exact (hd (j - 1) (by omega) _ h e).elim
      · omega
      · exact (hd (i - 1) (by omega) _ h e.symm).elim
    rw [← Finset.card_image_of_injOn hinj]
    refine le_hits f _ ∅ _ (Finset.disjoint_empty_right _) fun x hx => ?_
    rw [Finset.mem_image] at hx
    obtain ⟨b, hb, rfl⟩ := hx
    simp only [Q, Finset.mem_filter, Finset.mem_range] at hb
    obtain ⟨hb, hb1, k, hk, hu, hn⟩ := hb
    refine hit_turns f N B (b - 1) (by omega) q k hk _ _ ?_ hn
    obtain ⟨b', rfl⟩ : ∃ b', b = b' + 1 := ⟨b - 1, by omega⟩
    exact hu
  refine ⟨insert 0 Q, (Finset.card_insert_le _ _).trans (by omega), fun j hj k hk hu => ?_⟩
  obtain ⟨b, h1, h2, h3⟩ := source f B as q k j hk hu
  refine ⟨b, ?_, h1, h2⟩
  rcases Nat.eq_zero_or_pos b with rfl | hb
  · exact Finset.mem_insert_self _ _
  · refine Finset.mem_insert_of_mem (Finset.mem_filter.2 ⟨Finset.mem_range.2 (lt_of_le_of_lt h1 hj), hb, ?_⟩)
    exact h3.resolve_left (by omega)

theorem avg_many [Nonempty E] (hw : 1 ≤ w) {σ : Type} [Fintype σ] (B : E) (N q p : Nat) (a : σ → Fin N → Search w E) (bad : (E → E) → Prop) [DecidablePred bad]
    (hbad : ∀ f, bad f → ∃ s, p ≤ (turns N B q (List.ofFn (a s)) ∅).hits f ∅) :
    (avg fun f : E → E => if bad f then (1 : ℚ) else 0) ≤ Fintype.card σ * (2 * ((w : ℚ) * N * (q + 1)) ^ 2 / Fintype.card E) ^ p := by
  have h1 (f : E → E) : (if bad f then (1 : ℚ) else 0) ≤ ∑ s, if p ≤ (turns N B q (List.ofFn (a s)) ∅).hits f ∅ then (1 : ℚ) else 0 := by
    have hn (s : σ) : (0 : ℚ) ≤ if p ≤ (turns N B q (List.ofFn (a s)) ∅).hits f ∅ then (1 : ℚ) else 0 := by split_ifs <;> norm_num
    by_cases hf : bad f
    · obtain ⟨s, h⟩ := hbad f hf
      have := Finset.single_le_sum (fun s _ => hn s) (Finset.mem_univ s)
      rw [if_pos h] at this
      rwa [if_pos hf]
    · rw [if_neg hf]
      exact Finset.sum_nonneg fun s _ => hn s
  refine (avg_mono h1).trans ?_
  rw [avg_sum]
  refine (Finset.sum_le_sum fun s _ => avg_hits _ (w * N * (q + 1)) (2 * (w * N) * (q + 1)) p (turns_within hw N B q _ _ ∅ (by simp) (by simp))).trans_eq ?_
  rw [Finset.sum_const, Finset.card_univ, nsmul_eq_mul]
  congr 3
  push_cast
  ring

/-- An algorithm that names its result. -/
def search : Algorithm E → Search 1 E
  | .result y => .stop y
  | .eval x next => .eval (fun _ => x) (fun _ => x) fun y => search (next (y 0))

omit [Fintype E] [DecidableEq E] in
theorem step_time (f : E → E) (a : Algorithm E) : (step f)^[a.time f] (search a) = .stop (a.run f) := by
  induction a with
  | result y => rfl
  | eval x next ih =>
    rw [Algorithm.time, Function.iterate_succ, Algorithm.run]
    exact ih _

omit [Fintype E] [DecidableEq E] in
theorem time_le (f : E → E) (a : Algorithm E) (q : Nat) (h : a.Within q) : a.time f ≤ q := by
  induction a generalizing q with
  | result y => exact Nat.zero_le _
  | eval x next ih =>
    have := ih (f x) (q - 1) (h.2 _)
    have := h.1
    rw [Algorithm.time]
    omega

omit [Fintype E] in
theorem few (f : E → E) (B : E) {N q p : Nat} (a : Fin N → Algorithm E) (ha : ∀ j, (a j).Within q) (hd : Distinct f B N)
    (hh : (turns N B q (List.ofFn fun j => search (a j)) ∅).hits f ∅ < p) :
    (found f B a).card * (found f B a).card ≤ p * (2 * total f a (found f B a) + (found f B a).card) := by
  obtain ⟨P, hP, h⟩ := sources f B _ hd hh
  refine spread (found f B a) (fun j => (a j).time f) P p hP fun j hj => ?_
  rw [found, Finset.mem_filter] at hj
  refine h j.1 j.isLt ((a j).time f) (time_le f _ q (ha j)) ?_
  rw [List.mem_flatMap]
  refine ⟨_, List.mem_map.2 ⟨search (a j), List.mem_ofFn.2 ⟨j, rfl⟩, rfl⟩, ?_⟩
  rw [step_time, shown, hj.2]
  exact List.mem_singleton_self _

theorem tradeoff [Nonempty E] {σ : Type} [Fintype σ] (B : E) (N q p : Nat) (a : σ → Fin N → Algorithm E) (ha : ∀ s j, (a s j).Within q)
    (bad : (E → E) → Prop) [DecidablePred bad]
    (hbad : ∀ f, bad f → ∃ s, p * (2 * total f (a s) (found f B (a s)) + (found f B (a s)).card) < (found f B (a s)).card * (found f B (a s)).card) :
    (avg fun f : E → E => if bad f then (1 : ℚ) else 0) ≤
      (N : ℚ) * N / Fintype.card E + Fintype.card σ * (2 * ((N : ℚ) * (q + 1)) ^ 2 / Fintype.card E) ^ p := by
  classical
  have hmany := avg_many le_rfl B N q p (fun s j => search (a s j)) (fun f => bad f ∧ Distinct f B N) fun f hf => ?_
  rw [Nat.cast_one, one_mul] at hmany
  refine le_trans ?_ (add_le_add (avg_twice B N (fun f => ¬ Distinct f B N) fun f => id) hmany)
  · rw [← avg_add]
    refine avg_mono fun f => ?_
    by_cases h1 : bad f <;> by_cases h2 : Distinct f B N <;> simp [h1, h2]
  · obtain ⟨s, h⟩ := hbad f hf.1
    refine ⟨s, ?_⟩
    by_contra hc
    have := few f B (a s) (ha s) hf.2 (not_le.1 hc)
    omega

/-! ### Keeping every `k`-th entry -/

omit [Fintype E] [DecidableEq E] in
theorem climb_run (f : E → E) (n : Nat) (B : E) (i : Nat) : (climb n (entry f B i)).run f = entry f B (i + n) := by
  induction n generalizing i with
  | zero => rfl
  | succ n ih =>
    rw [climb, Algorithm.run]
    have := ih (i + 1)
    rwa [entry, show i + 1 + n = i + (n + 1) by omega] at this

omit [Fintype E] [DecidableEq E] in
theorem climb_time (f : E → E) (n : Nat) (x : E) : (climb n x).time f = n := by
  induction n generalizing x with
  | zero => rfl
  | succ n ih => rw [climb, Algorithm.time, ih]

omit [Fintype E] [DecidableEq E] in
theorem climb_within (n : Nat) (x : E) : (climb n x).Within n := by
  induction n generalizing x with
  | zero => trivial
  | succ n ih => exact ⟨by omega, fun y => ih y⟩

omit [Fintype E] [DecidableEq E] in
theorem within_mono {a : Algorithm E} {q q' : Nat} (h : a.Within q) (hq : q ≤ q') : a.Within q' := by
  induction a generalizing q q' with
  | result y => trivial
  | eval x next ih => exact ⟨h.1.trans hq, fun y => ih y (h.2 y) (by omega)⟩

theorem sum_mod (p k : Nat) : 2 * (∑ j ∈ Finset.range (p * k), j % k) + p * k = p * (k * k) := by
  induction p with
  | zero => simp
  | succ p ih =>
    have h1 : ∑ x ∈ Finset.range k, (p * k + x) % k = ∑ x ∈ Finset.range k, x := by
      refine Finset.sum_congr rfl fun x hx => ?_
      rw [Nat.mul_comm, Nat.mul_add_mod, Nat.mod_eq_of_lt (Finset.mem_range.1 hx)]
    have h2 := Finset.sum_range_id_mul_two k
    have h3 : k * (k - 1) + k = k * k := by
      cases k with
      | zero => rfl
      | succ k => rw [Nat.add_sub_cancel]; ring
    rw [show (p + 1) * k = p * k + k from Nat.succ_mul p k, Finset.sum_range_add, h1]
    nlinarith

end Spec.TableGames
