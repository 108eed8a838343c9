import Verif.Spec.ScryptPrice
import Verif.Proof.KeyGames

/-!
Algorithms that evaluate random functions: the order of the evaluations makes no difference, and an algorithm whose result is not used makes
none either.
-/

namespace Spec.ScryptPrice
open Spec Spec.Games

attribute [local irreducible] avg

variable {β γ : Type}

/-- The mean of what `f` makes of the result and of the values drawn. -/
def ex (f : β → Table → ℚ) : Table → Algorithm β → ℚ
  | t, .result b => f b t
  | t, .eval q next => match t q with
    | some y => ex f t (next y)
    | none => avg fun y : List.Vector Byte q.size => ex f (Function.update t q (some y)) (next y)

theorem random_eq (good : β → Bool) (a : Algorithm β) (t : Table) : a.random good t = ex (fun b _ => if good b then 1 else 0) t a := by
  induction a generalizing t with
  | result b => rfl
  | eval q next ih =>
    cases e : t q with
    | some y => simp only [Algorithm.random, ex, e, ih]
    | none => simp only [Algorithm.random, ex, e, ih]

theorem ex_some {f : β → Table → ℚ} {t : Table} {q : Question} {next : List.Vector Byte q.size → Algorithm β} {y : List.Vector Byte q.size}
    (h : t q = some y) : ex f t (.eval q next) = ex f t (next y) := by
  rw [ex, h]

theorem ex_none {f : β → Table → ℚ} {t : Table} {q : Question} {next : List.Vector Byte q.size → Algorithm β} (h : t q = none) :
    ex f t (.eval q next) = avg fun y : List.Vector Byte q.size => ex f (Function.update t q (some y)) (next y) := by
  rw [ex, h]

theorem ex_bind (f : γ → Table → ℚ) (a : Algorithm β) (k : β → Algorithm γ) (t : Table) :
    ex f t (a.bind k) = ex (fun b t' => ex f t' (k b)) t a := by
  induction a generalizing t with
  | result b => rfl
  | eval q next ih =>
    rw [Algorithm.bind, ex, ex]
    split
    · exact ih _ _
    · exact congrArg avg (funext fun y => ih _ _)

/-- What may be reached: a result and the values drawn by then. -/
inductive Reach : Table → Algorithm β → β → Table → Prop
  | result (t : Table) (b : β) : Reach t (.result b) b t
  | known {t t' : Table} {q : Question} {next : List.Vector Byte q.size → Algorithm β} {b : β} (y : List.Vector Byte q.size) :
      t q = some y → Reach t (next y) b t' → Reach t (.eval q next) b t'
  | fresh {t t' : Table} {q : Question} {next : List.Vector Byte q.size → Algorithm β} {b : β} (y : List.Vector Byte q.size) :
      t q = none → Reach (Function.update t q (some y)) (next y) b t' → Reach t (.eval q next) b t'

theorem ex_mono {f g : β → Table → ℚ} {t : Table} {a : Algorithm β} (h : ∀ b t', Reach t a b t' → f b t' ≤ g b t') : ex f t a ≤ ex g t a := by
  induction a generalizing t with
  | result b => exact h _ _ (.result _ _)
  | eval q next ih =>
    cases e : t q with
    | some y =>
      rw [ex_some e, ex_some e]
      exact ih _ fun b t' hr => h _ _ (.known y e hr)
    | none =>
      rw [ex_none e, ex_none e]
      exact avg_mono fun y => ih _ fun b t' hr => h _ _ (.fresh y e hr)

theorem ex_congr {f g : β → Table → ℚ} {t : Table} {a : Algorithm β} (h : ∀ b t', Reach t a b t' → f b t' = g b t') : ex f t a = ex g t a :=
  le_antisymm (ex_mono fun b t' hr => (h b t' hr).le) (ex_mono fun b t' hr => (h b t' hr).ge)

theorem ex_const (c : ℚ) (t : Table) (a : Algorithm β) : ex (fun _ _ => c) t a = c := by
  induction a generalizing t with
  | result b => rfl
  | eval q next ih =>
    rw [ex]
    split
    · exact ih _ _
    · simp only [ih, avg_const]

theorem ex_le_const {f : β → Table → ℚ} {t : Table} {a : Algorithm β} {c : ℚ} (h : ∀ b t', Reach t a b t' → f b t' ≤ c) : ex f t a ≤ c :=
  (ex_mono h).trans_eq (ex_const c t a)

theorem ex_nonneg {f : β → Table → ℚ} {t : Table} {a : Algorithm β} (h : ∀ b t', 0 ≤ f b t') : 0 ≤ ex f t a :=
  (ex_const 0 t a).symm.trans_le (ex_mono fun b t' _ => h b t')

theorem ex_add (f g : β → Table → ℚ) (t : Table) (a : Algorithm β) : ex (fun b t' => f b t' + g b t') t a = ex f t a + ex g t a := by
  induction a generalizing t with
  | result b => rfl
  | eval q next ih =>
    cases e : t q with
    | some y => simp only [ex_some e, ih]
    | none => simp only [ex_none e, ih, avg_add]

theorem ex_sub (f g : β → Table → ℚ) (t : Table) (a : Algorithm β) : ex (fun b t' => f b t' - g b t') t a = ex f t a - ex g t a := by
  induction a generalizing t with
  | result b => rfl
  | eval q next ih =>
    cases e : t q with
    | some y => simp only [ex_some e, ih]
    | none => simp only [ex_none e, ih, avg_sub]

theorem ex_avg {α : Type} [Fintype α] (f : α → β → Table → ℚ) (t : Table) (a : Algorithm β) :
    ex (fun b t' => avg fun x => f x b t') t a = avg fun x => ex (f x) t a := by
  induction a generalizing t with
  | result b => rfl
  | eval q next ih =>
    cases e : t q with
    | some y => simp only [ex_some e, ih]
    | none =>
      simp only [ex_none e, ih]
      exact avg_comm _

theorem ex_close {f g d : β → Table → ℚ} {t : Table} {a : Algorithm β} (h : ∀ b t', Reach t a b t' → |f b t' - g b t'| ≤ d b t') :
    |ex f t a - ex g t a| ≤ ex d t a := by
  rw [← ex_sub, abs_le]
  have hn : ex (fun b t' => - d b t') t a = - ex d t a := by
    have := ex_sub (fun _ _ => 0) d t a
    simp only [zero_sub, ex_const] at this
    exact this
  exact ⟨hn.symm.trans_le (ex_mono fun b t' hr => (abs_le.1 (h b t' hr)).1), ex_mono fun b t' hr => (abs_le.1 (h b t' hr)).2⟩

/-! ### The order of the evaluations -/

/-- What is known stays known. -/
def Extends (t t' : Table) : Prop := ∀ q y, t q = some y → t' q = some y

theorem Extends.update {t : Table} {q : Question} (h : t q = none) (y : List.Vector Byte q.size) : Extends t (Function.update t q (some y)) := by
  intro q' y' h'
  have : q' ≠ q := by
    rintro rfl
    rw [h] at h'
    cases h'
  rw [Function.update_of_ne this, h']

theorem Reach.extends {t t' : Table} {a : Algorithm β} {b : β} (h : Reach t a b t') : Extends t t' := by
  induction h with
  | result t b => exact fun q y h => h
  | known y e _ ih => exact ih
  | fresh y e _ ih => exact fun q y' h => ih _ _ (Extends.update e y _ _ h)

/-- The mean does not change when a value is drawn beforehand. -/
def Fair (g : Table → ℚ) : Prop := ∀ (t : Table) (q : Question), t q = none → g t = avg fun y : List.Vector Byte q.size => g (Function.update t q (some y))

theorem fair_const (c : ℚ) : Fair fun _ => c := fun _ _ _ => (avg_const c).symm

theorem fair_ex {g : β → Table → ℚ} (hg : ∀ b, Fair (g b)) (a : Algorithm β) : Fair fun t => ex g t a := by
  induction a with
  | result b => exact hg b
  | eval q' next ih =>
    intro t q h
    beta_reduce
    by_cases hq : q' = q
    · subst hq
      simp only [ex_none h]
      refine congrArg avg (funext fun y => ?_)
      rw [ex_some (y := y) (Function.update_self _ _ _)]
    · cases e : t q' with
      | some y =>
        have e1 := ih y t q h
        beta_reduce at e1
        rw [ex_some e, e1]
        refine congrArg avg (funext fun z => ?_)
        rw [ex_some (y := y)]
        rw [Function.update_of_ne hq, e]
      | none =>
        rw [ex_none e]
        have e1 (y : List.Vector Byte q'.size) := ih y (Function.update t q' (some y)) q (by rw [Function.update_of_ne (Ne.symm hq), h])
        beta_reduce at e1
        simp only [e1]
        rw [avg_comm]
        refine congrArg avg (funext fun z => ?_)
        rw [ex_none (by rw [Function.update_of_ne hq, e])]
        refine congrArg avg (funext fun y => ?_)
        rw [Function.update_comm hq]

/-- An algorithm whose result is not used makes no difference. -/
theorem ex_drop {g : Table → ℚ} (hg : Fair g) (t : Table) (a : Algorithm β) : ex (fun _ t' => g t') t a = g t := by
  induction a generalizing t with
  | result b => rfl
  | eval q next ih =>
    cases e : t q with
    | some y => rw [ex_some e, ih]
    | none =>
      rw [ex_none e, hg t q e]
      exact congrArg avg (funext fun y => ih _ _)

/-- Two algorithms may change places. -/
theorem ex_swap (f : β → γ → ℚ) (t : Table) (a : Algorithm β) (b : Algorithm γ) :
    ex (fun x t' => ex (fun y _ => f x y) t' b) t a = ex (fun y t' => ex (fun x _ => f x y) t' a) t b := by
  induction a generalizing t with
  | result x => rfl
  | eval q next ih =>
    cases e : t q with
    | some z =>
      rw [ex_some e, ih]
      refine ex_congr fun y t' hr => ?_
      rw [ex_some (hr.extends _ _ e)]
    | none =>
      rw [ex_none e]
      have hf : Fair fun t => ex (fun y t' => ex (fun x _ => f x y) t' (.eval q next)) t b :=
        fair_ex (fun y => fair_ex (fun x => fair_const _) _) b
      refine Eq.trans (congrArg avg (funext fun z => ?_)) (hf t q e).symm
      rw [ih]
      refine ex_congr fun y t' hr => ?_
      rw [ex_some (hr.extends _ _ (Function.update_self _ _ _))]

/-- With the values that are known, the algorithm has this result. -/
def Replay (t : Table) (b : β) : Algorithm β → Prop
  | .result b' => b' = b
  | .eval q next => ∃ y, t q = some y ∧ Replay t b (next y)

theorem Replay.mono {t t' : Table} {b : β} {a : Algorithm β} (ht : Extends t t') (h : Replay t b a) : Replay t' b a := by
  induction a with
  | result b' => exact h
  | eval q next ih =>
    obtain ⟨y, e, h⟩ := h
    exact ⟨y, ht _ _ e, ih y h⟩

theorem Reach.replay {t t' : Table} {a : Algorithm β} {b : β} (h : Reach t a b t') : Replay t' b a := by
  induction h with
  | result t b => rfl
  | known y e hr ih => exact ⟨y, hr.extends _ _ e, ih⟩
  | fresh y e hr ih => exact ⟨y, hr.extends _ _ (Function.update_self _ _ _), ih⟩

theorem Replay.ex {t : Table} {b : β} {a : Algorithm β} (h : Replay t b a) (f : β → Table → ℚ) : ex f t a = f b t := by
  induction a with
  | result b' =>
    cases h
    rfl
  | eval q next ih =>
    obtain ⟨y, e, h⟩ := h
    rw [ex_some e, ih y h]

/-! ### Logs -/

/-- The algorithm together with the evaluations that it makes. -/
def Algorithm.logged : Algorithm β → Algorithm (β × List Question)
  | .result b => .result (b, [])
  | .eval q next => .eval q fun y => (next y).logged.bind fun p => .result (p.1, q :: p.2)

theorem ex_logged_some {f : β × List Question → Table → ℚ} {t : Table} {q : Question} {next : List.Vector Byte q.size → Algorithm β}
    {y : List.Vector Byte q.size} (h : t q = some y) :
    ex f t (Algorithm.eval q next).logged = ex (fun p t' => f (p.1, q :: p.2) t') t (next y).logged := by
  rw [Algorithm.logged, ex_some h, ex_bind]
  rfl

theorem ex_logged_none {f : β × List Question → Table → ℚ} {t : Table} {q : Question} {next : List.Vector Byte q.size → Algorithm β}
    (h : t q = none) :
    ex f t (Algorithm.eval q next).logged = avg fun y : List.Vector Byte q.size =>
      ex (fun p t' => f (p.1, q :: p.2) t') (Function.update t q (some y)) (next y).logged := by
  rw [Algorithm.logged, ex_none h]
  refine congrArg avg (funext fun y => ?_)
  rw [ex_bind]
  rfl

theorem ex_logged (f : β → Table → ℚ) (t : Table) (a : Algorithm β) : ex (fun p t' => f p.1 t') t a.logged = ex f t a := by
  induction a generalizing t with
  | result b => rfl
  | eval q next ih =>
    cases e : t q with
    | some y => rw [ex_logged_some e, ex_some e, ih]
    | none =>
      rw [ex_logged_none e, ex_none e]
      exact congrArg avg (funext fun y => ih _ _)

theorem ex_logged_bind (f : γ × List Question → Table → ℚ) (a : Algorithm β) (k : β → Algorithm γ) (t : Table) :
    ex f t (a.bind k).logged = ex (fun p t' => ex (fun p' t'' => f (p'.1, p.2 ++ p'.2) t'') t' (k p.1).logged) t a.logged := by
  induction a generalizing t f with
  | result b => rfl
  | eval q next ih =>
    rw [Algorithm.bind]
    cases e : t q with
    | some y => rw [ex_logged_some e, ex_logged_some e, ih]; rfl
    | none =>
      rw [ex_logged_none e, ex_logged_none e]
      exact congrArg avg (funext fun y => ih _ _ _)

theorem Reach.bind {t t' : Table} {a : Algorithm β} {k : β → Algorithm γ} {c : γ} (h : Reach t (a.bind k) c t') :
    ∃ b t₁, Reach t a b t₁ ∧ Reach t₁ (k b) c t' := by
  induction a generalizing t with
  | result b => exact ⟨b, t, .result _ _, h⟩
  | eval q next ih =>
    rw [Algorithm.bind] at h
    cases h with
    | known y e h =>
      obtain ⟨b, t₁, h1, h2⟩ := ih y h
      exact ⟨b, t₁, .known y e h1, h2⟩
    | fresh y e h =>
      obtain ⟨b, t₁, h1, h2⟩ := ih y h
      exact ⟨b, t₁, .fresh y e h1, h2⟩

/-- The log has all that was drawn. -/
theorem Reach.log {t t' : Table} {a : Algorithm β} {p : β × List Question} (h : Reach t a.logged p t') (q : Question) (hq : t' q ≠ none) :
    t q ≠ none ∨ q ∈ p.2 := by
  induction a generalizing t p with
  | result b =>
    cases h
    exact .inl hq
  | eval q' next ih =>
    rw [Algorithm.logged] at h
    cases h with
    | known y e h =>
      obtain ⟨p', t₁, h1, h2⟩ := h.bind
      cases h2
      rcases ih y h1 with h | h
      · exact .inl h
      · exact .inr (List.mem_cons_of_mem _ h)
    | fresh y e h =>
      obtain ⟨p', t₁, h1, h2⟩ := h.bind
      cases h2
      rcases ih y h1 with h | h
      · by_cases hqq : q = q'
        · exact .inr (hqq ▸ List.mem_cons_self)
        · rw [Function.update_of_ne hqq] at h
          exact .inl h
      · exact .inr (List.mem_cons_of_mem _ h)

/-- One if `p` holds, else zero. -/
noncomputable def ind (p : Prop) : ℚ := open Classical in if p then 1 else 0

theorem ind_pos {p : Prop} (h : p) : ind p = 1 := if_pos h

theorem ind_neg {p : Prop} (h : ¬ p) : ind p = 0 := if_neg h

theorem ind_nonneg (p : Prop) : 0 ≤ ind p := by
  rw [ind]
  split_ifs <;> norm_num

theorem ind_le_one (p : Prop) : ind p ≤ 1 := by
  rw [ind]
  split_ifs <;> norm_num

theorem ind_mono {p p' : Prop} (h : p → p') : ind p ≤ ind p' := by
  by_cases hp : p
  · rw [ind_pos hp, ind_pos (h hp)]
  · rw [ind_neg hp]
    exact ind_nonneg _

theorem ind_or (p p' : Prop) : ind (p ∨ p') ≤ ind p + ind p' := by
  by_cases hp : p
  · rw [ind_pos hp, ind_pos (.inl hp)]
    have := ind_nonneg p'
    linarith
  · rw [ind_neg hp, zero_add]
    exact ind_mono fun h => h.resolve_left hp

/-- One if one of the questions was asked. -/
noncomputable def meets (ok : Question → Prop) (l : List Question) : ℚ := ind (∃ q ∈ l, ok q)

theorem meets_nonneg (ok : Question → Prop) (l : List Question) : 0 ≤ meets ok l := ind_nonneg _

/-- Values that are not asked for make no difference. -/
theorem ex_until (f : β → ℚ) (h0 : ∀ b, 0 ≤ f b) (h1 : ∀ b, f b ≤ 1) (ok : Question → Prop) (t t' : Table) (h : ∀ q, ¬ ok q → t' q = t q)
    (a : Algorithm β) : |ex (fun b _ => f b) t' a - ex (fun b _ => f b) t a| ≤ ex (fun p _ => meets ok p.2) t a.logged := by
  induction a generalizing t t' with
  | result b =>
    simp only [ex, sub_self, abs_zero]
    exact meets_nonneg _ _
  | eval q next ih =>
    by_cases hq : ok q
    · have hb (t : Table) : 0 ≤ ex (fun b _ => f b) t (.eval q next) ∧ ex (fun b _ => f b) t (.eval q next) ≤ 1 :=
        ⟨ex_nonneg fun b _ => h0 b, ex_le_const fun b _ _ => h1 b⟩
      have e (l : List Question) : meets ok (q :: l) = 1 := by
        exact ind_pos ⟨q, List.mem_cons_self, hq⟩
      have hr : ex (fun p _ => meets ok p.2) t (Algorithm.eval q next).logged = 1 := by
        cases ht : t q with
        | some y => simp only [ex_logged_some ht, e, ex_const]
        | none => simp only [ex_logged_none ht, e, ex_const, avg_const]
      rw [hr]
      exact abs_sub_le_one (hb _).1 (hb _).2 (hb _).1 (hb _).2
    · have e (l : List Question) : meets ok (q :: l) = meets ok l := by
        rw [meets, meets]
        exact congrArg ind (by simp [hq])
      cases ht : t q with
      | some y =>
        rw [ex_some ht, ex_some ((h q hq).trans ht), ex_logged_some ht]
        simp only [e]
        exact ih y t t' h
      | none =>
        rw [ex_none ht, ex_none ((h q hq).trans ht), ex_logged_none ht]
        simp only [e]
        refine avg_close _ fun y => ih y _ _ fun q' hq' => ?_
        by_cases hqq : q' = q
        · subst hqq
          rw [Function.update_self, Function.update_self]
        · rw [Function.update_of_ne hqq, Function.update_of_ne hqq, h q' hq']

end Spec.ScryptPrice
