import Verif.Spec.TableMachine
import Verif.Proof.TableGames

/-!
The whole of scryptROMix in little memory, when scryptBlockMix is a random function. In the second loop every value is needed to know which entry
of the table comes next. When the machine has evaluated the function on one of these values, then it can get at few entries in a short time
(`Proof/TableGames.lean`), and the one that it needs next is a random one.
-/

namespace Spec.TableMachine
open Spec Spec.Games Spec.TableGames

attribute [local irreducible] avg
set_option linter.constructorNameAsVariable false

variable {E : Type} [Fintype E] [DecidableEq E]

/-! ### Drawing one value again -/

theorem avg_scale {α : Type} [Fintype α] (c : ℚ) (f : α → ℚ) : (avg fun a => c * f a) = c * avg f := by
  rw [avg, avg, ← Finset.mul_sum, mul_div_assoc]

theorem avg_at [Nonempty E] (z : (E → E) → E) (Q : (E → E) → Prop) [DecidablePred Q]
    (hQ : ∀ f u, Q f → Q (Function.update f (z f) u) ∧ z (Function.update f (z f) u) = z f) (F : (E → E) → ℚ) :
    (avg fun f => if Q f then F f else 0) = avg fun f => if Q f then avg fun u => F (Function.update f (z f) u) else 0 := by
  let φ : ((E → E) × E) → ((E → E) × E) := fun p => if Q p.1 then (Function.update p.1 (z p.1) p.2, p.1 (z p.1)) else p
  have hφ : Function.Involutive φ := by
    rintro ⟨f, u⟩
    by_cases h : Q f
    · obtain ⟨h1, h2⟩ := hQ f u h
      simp [φ, h, h1, h2]
    · simp [φ, h]
  have h := avg_equiv (hφ.toPerm φ) fun p : (E → E) × E => if Q p.1 then F p.1 else 0
  have e (p : (E → E) × E) : (if Q ((hφ.toPerm φ) p).1 then F ((hφ.toPerm φ) p).1 else 0) = if Q p.1 then F (Function.update p.1 (z p.1) p.2) else 0 := by
    obtain ⟨f, u⟩ := p
    by_cases h : Q f
    · obtain ⟨h1, h2⟩ := hQ f u h
      simp [Function.Involutive.coe_toPerm, φ, h, h1]
    · simp [Function.Involutive.coe_toPerm, φ, h]
  simp only [e] at h
  rw [avg_prod, avg_prod] at h
  simp only [avg_const] at h
  rw [← h]
  congr 1
  funext f
  split_ifs
  · rfl
  · exact avg_const 0

/-- An event that is a matter of the value at one place. -/
theorem avg_at_le [Nonempty E] (z : (E → E) → E) (Q : (E → E) → Prop)
    (hQ : ∀ f u, Q f → Q (Function.update f (z f) u) ∧ z (Function.update f (z f) u) = z f) (S : (E → E) → Finset E) (n : Nat) (hn : ∀ f, (S f).card ≤ n)
    (bad : (E → E) → Prop) [DecidablePred bad] (h1 : ∀ f, bad f → Q f) (h2 : ∀ f u, Q f → bad (Function.update f (z f) u) → u ∈ S f) :
    (avg fun f : E → E => if bad f then (1 : ℚ) else 0) ≤ n / Fintype.card E := by
  classical
  have e (f : E → E) : (if bad f then (1 : ℚ) else 0) = if Q f then (if bad f then (1 : ℚ) else 0) else 0 := by
    by_cases hb : bad f
    · simp [hb, h1 f hb]
    · simp [hb]
  rw [show (fun f => if bad f then (1 : ℚ) else 0) = fun f => if Q f then (if bad f then (1 : ℚ) else 0) else 0 from funext e, avg_at z Q hQ]
  have h0 : (0 : ℚ) ≤ n / Fintype.card E := by positivity
  refine (avg_mono fun f => ?_).trans_eq (avg_const (α := E → E) ((n : ℚ) / Fintype.card E))
  split_ifs with hf
  · refine (avg_mono (g := fun u => if u ∈ S f then (1 : ℚ) else 0) fun u => ?_).trans ?_
    · by_cases hb : bad (Function.update f (z f) u)
      · rw [if_pos hb, if_pos (h2 f u hf hb)]
      · rw [if_neg hb]
        split_ifs <;> norm_num
    · rw [avg_mem_card]
      have : ((S f).card : ℚ) ≤ n := by exact_mod_cast hn f
      gcongr
  · exact h0

/-! ### The second loop -/

section
variable (op : E → E → E) {N : Nat} (ix : E → Fin N) (B : E)

/-- The value of `X` after `k` iterations of the second loop. -/
def loopX (f : E → E) : Nat → E
  | 0 => entry f B N
  | k + 1 => f (op (loopX f k) (entry f B (ix (loopX f k))))

/-- What the function is evaluated on in iteration number `k`. -/
def loopZ (f : E → E) (k : Nat) : E := op (loopX op ix B f k) (entry f B (ix (loopX op ix B f k)))

/-- Up to iteration number `k`, there is nothing that was there before. -/
def New (f : E → E) (k : Nat) : Prop :=
  Distinct f B N ∧ (∀ i ≤ k, ∀ j < N, loopZ op ix B f i ≠ entry f B j) ∧ ∀ i ≤ k, ∀ j < i, loopZ op ix B f j ≠ loopZ op ix B f i

omit [Fintype E] in
theorem entry_update (f : E → E) (x u : E) (n : Nat) (hx : ∀ j < n, x ≠ entry f B j) (i : Nat) (hi : i ≤ n) :
    entry (Function.update f x u) B i = entry f B i := by
  induction i with
  | zero => rfl
  | succ i ih => rw [entry, ih (by omega), Function.update_of_ne (hx i (by omega)).symm, entry]

omit [Fintype E] in
theorem loopX_update (f : E → E) (x u : E) (hx : ∀ j < N, x ≠ entry f B j) (k : Nat) (hk : ∀ i < k, x ≠ loopZ op ix B f i) (i : Nat) (hi : i ≤ k) :
    loopX op ix B (Function.update f x u) i = loopX op ix B f i := by
  induction i with
  | zero => exact entry_update B f x u N hx N le_rfl
  | succ i ih =>
    rw [loopX, ih (by omega), entry_update B f x u N hx _ (Fin.isLt _).le, loopX]
    exact Function.update_of_ne (hk i (by omega)).symm _ _

omit [Fintype E] in
theorem loopZ_update (f : E → E) (x u : E) (hx : ∀ j < N, x ≠ entry f B j) (k : Nat) (hk : ∀ i < k, x ≠ loopZ op ix B f i) (i : Nat) (hi : i ≤ k) :
    loopZ op ix B (Function.update f x u) i = loopZ op ix B f i := by
  rw [loopZ, loopX_update op ix B f x u hx k hk i hi, entry_update B f x u N hx _ (Fin.isLt _).le, loopZ]

variable {op ix B}

omit [Fintype E] [DecidableEq E] in
theorem New.out {f : E → E} {k : Nat} (h : New op ix B f k) : ∀ j < N, loopZ op ix B f k ≠ entry f B j := h.2.1 k le_rfl

omit [Fintype E] [DecidableEq E] in
theorem New.out' {f : E → E} {k : Nat} (h : New op ix B f k) : ∀ i < k, loopZ op ix B f k ≠ loopZ op ix B f i := fun i hi => (h.2.2 k le_rfl i hi).symm

omit [Fintype E] in
theorem New.entry {f : E → E} {k : Nat} (h : New op ix B f k) (u : E) (i : Nat) (hi : i ≤ N) :
    entry (Function.update f (loopZ op ix B f k) u) B i = entry f B i := entry_update B f _ u N h.out i hi

omit [Fintype E] in
theorem New.Z {f : E → E} {k : Nat} (h : New op ix B f k) (u : E) (i : Nat) (hi : i ≤ k) :
    loopZ op ix B (Function.update f (loopZ op ix B f k) u) i = loopZ op ix B f i := loopZ_update op ix B f _ u h.out k h.out' i hi

omit [Fintype E] in
theorem New.next {f : E → E} {k : Nat} (h : New op ix B f k) (u : E) :
    loopZ op ix B (Function.update f (loopZ op ix B f k) u) (k + 1) = op u (Spec.TableGames.entry f B (ix u)) := by
  have e : loopX op ix B (Function.update f (loopZ op ix B f k) u) (k + 1) = u := by
    have := h.Z u k le_rfl
    rw [loopZ] at this
    rw [loopX, this]
    exact Function.update_self _ _ _
  rw [loopZ, e, h.entry u _ (Fin.isLt _).le]

omit [Fintype E] in
theorem New.update {f : E → E} {k : Nat} (h : New op ix B f k) (u : E) : New op ix B (Function.update f (loopZ op ix B f k) u) k := by
  refine ⟨fun i hi j hj => ?_, fun i hi j hj => ?_, fun i hi j hj => ?_⟩
  · rw [h.entry u i hi.le, h.entry u j (by omega)]
    exact h.1 i hi j hj
  · rw [h.Z u i hi, h.entry u j hj.le]
    exact h.2.1 i hi j hj
  · rw [h.Z u i hi, h.Z u j (by omega)]
    exact h.2.2 i hi j hj

omit [Fintype E] [DecidableEq E] in
theorem New.mono {f : E → E} {k k' : Nat} (h : New op ix B f k) (hk : k' ≤ k) : New op ix B f k' :=
  ⟨h.1, fun i hi => h.2.1 i (hi.trans hk), fun i hi => h.2.2 i (hi.trans hk)⟩

end

/-! ### The machine -/

section
variable {c : Nat} {σ : Type} (M : σ → Act c σ E)

/-- The memory after `t` steps; it stays as it is when there is a result. -/
def after (f : E → E) : Nat → σ → σ
  | 0, s => s
  | t + 1, s => after f t (match M s with
    | .result _ => s
    | .eval x next => next fun i => f (x i))

/-- What the machine evaluates next. -/
def query (s : σ) : List E := match M s with
  | .result _ => []
  | .eval x _ => List.ofFn x

omit [Fintype E] [DecidableEq E] in
theorem after_add (f : E → E) (t t' : Nat) (s : σ) : after M f (t + t') s = after M f t' (after M f t s) := by
  induction t generalizing s with
  | zero => rw [Nat.zero_add, after]
  | succ t ih => rw [Nat.add_right_comm, after, ih, after]

omit [Fintype E] [DecidableEq E] in
theorem after_result (f : E → E) (t : Nat) (s : σ) (y : E) (h : M s = .result y) : after M f t s = s := by
  induction t with
  | zero => rfl
  | succ t ih =>
    rw [after]
    simp only [h]
    exact ih

omit [Fintype E] in
theorem after_update (f : E → E) (x u : E) (t : Nat) (s : σ) (h : ∀ t' < t, x ∉ query M (after M f t' s)) :
    after M (Function.update f x u) t s = after M f t s := by
  induction t generalizing s with
  | zero => rfl
  | succ t ih =>
    have h0 := h 0 (by omega)
    have h1 (t' : Nat) (ht : t' < t) := h (t' + 1) (by omega)
    rw [after, after]
    cases e : M s with
    | result y =>
      simp only [after, e] at h1
      exact ih s h1
    | eval q next =>
      simp only [after, query, e, List.mem_ofFn, not_exists] at h0
      simp only [after, e] at h1
      simp only [Function.update_of_ne (h0 _)]
      exact ih _ h1

omit [Fintype E] [DecidableEq E] in
theorem outcome_after (f : E → E) (T : Nat) (s : σ) (y : E) (h : outcome f M T s = some y) : ∃ t ≤ T, M (after M f t s) = .result y := by
  induction T generalizing s with
  | zero =>
    rw [outcome] at h
    cases e : M s with
    | result y' =>
      simp only [e, Option.some.injEq] at h
      exact ⟨0, le_rfl, by rw [after, e, h]⟩
    | eval q next => simp [e] at h
  | succ T ih =>
    rw [outcome] at h
    cases e : M s with
    | result y' =>
      simp only [e, Option.some.injEq] at h
      exact ⟨0, by omega, by rw [after, e, h]⟩
    | eval q next =>
      simp only [e] at h
      obtain ⟨t, ht, h'⟩ := ih _ h
      refine ⟨t + 1, by omega, ?_⟩
      rw [after]
      simp only [e]
      exact h'

omit [Fintype E] in
theorem outcome_update (f : E → E) (x u : E) (T : Nat) (s : σ) (h : ∀ t < T, x ∉ query M (after M f t s)) :
    outcome (Function.update f x u) M T s = outcome f M T s := by
  induction T generalizing s with
  | zero => rfl
  | succ T ih =>
    have h0 := h 0 (by omega)
    have h1 (t' : Nat) (ht : t' < T) := h (t' + 1) (by omega)
    rw [outcome, outcome]
    cases e : M s with
    | result y => rfl
    | eval q next =>
      simp only [after, query, e, List.mem_ofFn, not_exists] at h0
      simp only [after, e] at h1
      simp only [Function.update_of_ne (h0 _)]
      exact ih _ h1

variable (s₀ : σ)

/-- The machine evaluates the function on `x` after `t` other evaluations, and not before. -/
def First (f : E → E) (x : E) (t : Nat) : Prop := x ∈ query M (after M f t s₀) ∧ ∀ t' < t, x ∉ query M (after M f t' s₀)

variable {M s₀}

omit [Fintype E] [DecidableEq E] in
theorem First.unique {f : E → E} {x : E} {t t' : Nat} (h : First M s₀ f x t) (h' : First M s₀ f x t') : t = t' := by
  rcases lt_trichotomy t t' with hl | hl | hl
  · exact (h'.2 t hl h.1).elim
  · exact hl
  · exact (h.2 t' hl h'.1).elim

omit [Fintype E] [DecidableEq E] in
theorem First.exists {f : E → E} {x : E} {t : Nat} (h : x ∈ query M (after M f t s₀)) : ∃ t' ≤ t, First M s₀ f x t' := by
  classical
  have hex : ∃ t, x ∈ query M (after M f t s₀) := ⟨t, h⟩
  exact ⟨Nat.find hex, Nat.find_min' hex h, Nat.find_spec hex, fun t' ht => Nat.find_min hex ht⟩

omit [Fintype E] in
theorem First.update {f : E → E} {x y : E} {t t₀ : Nat} (h₀ : First M s₀ f x t₀) (ht : t ≤ t₀) (h : First M s₀ f y t) (u : E) :
    First M s₀ (Function.update f x u) y t := by
  have e (t' : Nat) (ht' : t' ≤ t) : after M (Function.update f x u) t' s₀ = after M f t' s₀ :=
    after_update M f x u t' s₀ fun t'' h'' => h₀.2 t'' (by omega)
  refine ⟨by rw [e t le_rfl]; exact h.1, fun t' ht' => ?_⟩
  rw [e t' ht'.le]
  exact h.2 t' ht'

end

/-! ### Short times -/

section
variable (op : E → E → E) {N : Nat} (ix : E → Fin N) (B : E) {c : Nat} {σ : Type} (M : σ → Act c σ E) (s₀ : σ) (d : σ → Nat)

/-- Up to iteration number `k`, the machine makes the evaluations of the second loop, one after the other. -/
def Reached (k : Nat) (f : E → E) : Prop :=
  New op ix B f k ∧ ∃ τ : Nat → Nat, (∀ i ≤ k, First M s₀ f (loopZ op ix B f i) (τ i)) ∧ ∀ i < k, τ i < τ (i + 1)

/-- From each of the contents `s` of the memory, up to step number `t`, there are `d s` steps; this is when the last of them ends. -/
def limit (f : E → E) (t : Nat) : Nat := (Finset.range (t + 1)).sup fun r => r + d (after M f r s₀)

/-- The evaluation in iteration number `k + 1` comes soon after that in iteration number `k`. -/
def Fast (k : Nat) (f : E → E) : Prop :=
  ∃ t₀ t, First M s₀ f (loopZ op ix B f k) t₀ ∧ First M s₀ f (loopZ op ix B f (k + 1)) t ∧ t₀ < t ∧ t < limit M s₀ d f t₀

theorem mono_of_step {τ : Nat → Nat} {k : Nat} (h : ∀ i < k, τ i < τ (i + 1)) (i : Nat) (hi : i ≤ k) : τ i ≤ τ k := by
  obtain ⟨n, rfl⟩ := Nat.exists_eq_add_of_le hi
  clear hi
  induction n with
  | zero => exact le_rfl
  | succ n ih => exact (ih fun j hj => h j (by omega)).trans (h (i + n) (by omega)).le

variable {op ix B M s₀ d}

omit [Fintype E] in
theorem limit_update {f : E → E} {x : E} {t₀ : Nat} (h : First M s₀ f x t₀) (t : Nat) (ht : t ≤ t₀) (u : E) :
    limit M s₀ d (Function.update f x u) t = limit M s₀ d f t := by
  refine Finset.sup_congr rfl fun r hr => ?_
  rw [Finset.mem_range] at hr
  rw [after_update M f x u r s₀ fun t' ht' => h.2 t' (by omega)]

omit [Fintype E] in
theorem Reached.update {k : Nat} {f : E → E} (h : Reached op ix B M s₀ k f) (u : E) :
    Reached op ix B M s₀ k (Function.update f (loopZ op ix B f k) u) := by
  obtain ⟨hn, τ, h1, h2⟩ := h
  refine ⟨hn.update u, τ, fun i hi => ?_, h2⟩
  rw [hn.Z u i hi]
  exact (h1 k le_rfl).update (mono_of_step h2 i hi) (h1 i hi) u

omit [Fintype E] [DecidableEq E] in
theorem Reached.pred {k : Nat} {f : E → E} (h : Reached op ix B M s₀ (k + 1) f) : Reached op ix B M s₀ k f := by
  obtain ⟨hn, τ, h1, h2⟩ := h
  exact ⟨hn.mono (by omega), τ, fun i hi => h1 i (by omega), fun i hi => h2 i (by omega)⟩

omit [Fintype E] in
theorem Reached.fast {k : Nat} {f : E → E} (h : Reached op ix B M s₀ k f) (u : E) (i : Nat) (hi : i < k) (hf : Fast op ix B M s₀ d i f) :
    Fast op ix B M s₀ d i (Function.update f (loopZ op ix B f k) u) := by
  obtain ⟨hn, τ, h1, h2⟩ := h
  obtain ⟨t₀, t, hf1, hf2, hf3, hf4⟩ := hf
  obtain rfl := hf1.unique (h1 i hi.le)
  obtain rfl := hf2.unique (h1 (i + 1) hi)
  have hk := h1 k le_rfl
  refine ⟨τ i, τ (i + 1), ?_, ?_, hf3, ?_⟩
  · rw [hn.Z u i hi.le]
    exact hk.update (mono_of_step h2 i hi.le) hf1 u
  · rw [hn.Z u (i + 1) hi]
    exact hk.update (mono_of_step h2 (i + 1) hi) hf2 u
  · rw [limit_update hk _ (mono_of_step h2 i hi.le)]
    exact hf4

omit [Fintype E] in
theorem Reached.fast_iff {k : Nat} {f : E → E} (h : Reached op ix B M s₀ k f) (u : E) (i : Nat) (hi : i < k) :
    Fast op ix B M s₀ d i (Function.update f (loopZ op ix B f k) u) ↔ Fast op ix B M s₀ d i f := by
  refine ⟨fun hf => ?_, h.fast u i hi⟩
  have := (h.update u).fast (f (loopZ op ix B f k)) i hi hf
  rwa [h.1.Z u k le_rfl, Function.update_idem, Function.update_eq_self] at this

open Classical in
variable (op ix B M s₀ d) in
/-- How many of the first `k` evaluations are soon followed by the next one. -/
noncomputable def quick (k : Nat) (f : E → E) : Nat := ((Finset.range k).filter fun i => Fast op ix B M s₀ d i f).card

omit [Fintype E] in
theorem Reached.quick {k : Nat} {f : E → E} (h : Reached op ix B M s₀ k f) (u : E) :
    quick op ix B M s₀ d k (Function.update f (loopZ op ix B f k) u) = quick op ix B M s₀ d k f := by
  classical
  rw [TableMachine.quick, TableMachine.quick]
  congr 1
  ext i
  simp only [Finset.mem_filter, Finset.mem_range]
  exact and_congr_right fun hi => h.fast_iff u i hi

omit [Fintype E] [DecidableEq E] in
theorem quick_succ (k : Nat) (f : E → E) [Decidable (Fast op ix B M s₀ d k f)] :
    quick op ix B M s₀ d (k + 1) f = quick op ix B M s₀ d k f + if Fast op ix B M s₀ d k f then 1 else 0 := by
  classical
  rw [quick, quick, Finset.range_add_one, Finset.filter_insert]
  split_ifs
  · exact Finset.card_insert_of_notMem (by simp)
  · rfl

/-- What the machine does with the value `u` at `x`; with every evaluation it names what is missing from `u` to what the function is evaluated
on. -/
def explore (op : E → E → E) (M : σ → Act c σ E) (x u : E) : Nat → σ → Search c E
  | 0, _ => .stop x
  | n + 1, s => match M s with
    | .result _ => .stop x
    | .eval q next => .eval q (fun i => op (q i) u) fun y => explore op M x u n (next fun i => if q i = x then u else y i)

omit [Fintype E] in
theorem explore_step (f : E → E) (x u q : E) (t n : Nat) (ht : t < n) (s : σ) (h : q ∈ query M (after M (Function.update f x u) t s)) :
    op q u ∈ shown ((step f)^[t] (explore op M x u n s)) := by
  obtain ⟨n, rfl⟩ : ∃ n', n = n' + 1 := ⟨n - 1, by omega⟩
  induction t generalizing n s with
  | zero =>
    rw [after] at h
    cases e : M s with
    | result y => simp [query, e] at h
    | eval q' next =>
      simp only [query, e, List.mem_ofFn] at h
      obtain ⟨i, hi⟩ := h
      rw [explore]
      simp only [e, Function.iterate_zero, id, shown]
      exact List.mem_append_right _ (List.mem_ofFn.2 ⟨i, by rw [hi]⟩)
  | succ t ih =>
    cases e : M s with
    | result y =>
      rw [after_result M _ _ s y e] at h
      simp [query, e] at h
    | eval q' next =>
      rw [after] at h
      simp only [e] at h
      obtain ⟨n, rfl⟩ : ∃ n', n = n' + 1 := ⟨n - 1, by omega⟩
      have := ih _ h n (by omega)
      rw [Function.iterate_succ, explore]
      simp only [Function.comp, e, step]
      simp only [Function.update_apply] at this
      exact this

/-- The first `a` steps as they are, and then those with the value `u` for one of the arguments in the next one. -/
def approach (op : E → E → E) (M : σ → Act c σ E) (i : Fin c) (u : E) : (a n : Nat) → σ → Search c E
  | 0, n, s => match M s with
    | .result _ => .stop u
    | .eval q _ => explore op M (q i) u n s
  | _ + 1, 0, _ => .stop u
  | a + 1, n + 1, s => match M s with
    | .result _ => .stop u
    | .eval q next => .eval q q fun y => approach op M i u a n (next y)

omit [Fintype E] in
theorem approach_step (f : E → E) (i : Fin c) (x u q : E) (a t n : Nat) (ht : a + t < n) (s : σ) (hx : ∀ t' < a, x ∉ query M (after M f t' s))
    (xs : Fin c → E) (next : (Fin c → E) → σ) (hM : M (after M f a s) = .eval xs next) (hi : xs i = x)
    (h : q ∈ query M (after M (Function.update f x u) (a + t) s)) :
    op q u ∈ shown ((step f)^[a + t] (approach op M i u a n s)) := by
  induction a generalizing n s with
  | zero =>
    rw [after] at hM
    rw [Nat.zero_add] at h ht ⊢
    rw [approach]
    simp only [hM, hi]
    exact explore_step f x u q t n ht s h
  | succ a ih =>
    obtain ⟨n, rfl⟩ : ∃ n', n = n' + 1 := ⟨n - 1, by omega⟩
    have hx0 := hx 0 (by omega)
    have hx1 (t' : Nat) (ht' : t' < a) := hx (t' + 1) (by omega)
    cases e : M s with
    | result y => rw [after_result M _ _ s y e, e] at hM; cases hM
    | eval q' next' =>
      simp only [after, query, e, List.mem_ofFn, not_exists] at hx0
      rw [after] at hM
      rw [Nat.add_right_comm, after] at h
      simp only [after, e] at hx1 hM h
      simp only [Function.update_of_ne (hx0 _)] at h
      have := ih n (by omega) _ hx1 hM h
      rw [Nat.add_right_comm, Function.iterate_succ, approach]
      simp only [Function.comp, e, step]
      exact this

/-- The searches for all entries from a content of the memory, the values of `f` being numbered by `e`. The value for one of the arguments is
replaced, after some steps. -/
def searches (op : E → E → E) (M : σ → Act c σ E) (D : Nat) {R : Type} (e : E ≃ Fin N × R) (s : σ) (a : Fin D) (i : Fin c) (r : R) (j : Fin N) :
    Search c E := approach op M i (e.symm (j, r)) a D s

/-- The number of entries that are found from a content of the memory without the ones before. -/
def near (op : E → E → E) (B : E) (M : σ → Act c σ E) (D : Nat) {R : Type} (e : E ≃ Fin N × R) (s : σ) (a : Fin D) (i : Fin c) (r : R) (f : E → E) : Nat :=
  (turns N B D (List.ofFn (searches op M D e s a i r)) ∅).hits f ∅

theorem card_near (N d p : Nat) (P : Finset Nat) (hP : P.card ≤ p) : (Finset.univ.filter fun j : Fin N => ∃ b ∈ P, b ≤ j.1 ∧ j.1 < b + d).card ≤ p * d := by
  rw [← Finset.card_map Fin.valEmbedding]
  refine (Finset.card_le_card (t := P.biUnion fun b => Finset.Ico b (b + d)) fun j hj => ?_).trans ?_
  · rw [Finset.mem_map] at hj
    obtain ⟨i, hi, rfl⟩ := hj
    obtain ⟨b, hb, h1, h2⟩ := (Finset.mem_filter.1 hi).2
    exact Finset.mem_biUnion.2 ⟨b, hb, Finset.mem_Ico.2 ⟨h1, h2⟩⟩
  · refine Finset.card_biUnion_le.trans ?_
    simp only [Nat.card_Ico, Nat.add_sub_cancel_left, Finset.sum_const, smul_eq_mul]
    exact Nat.mul_le_mul_right _ hP

/-- Too many entries are near, for some content of the memory and not just a few of the values. -/
def Near (op : E → E → E) (B : E) (M : σ → Act c σ E) (D : Nat) {R : Type} [Fintype R] (e : E ≃ Fin N × R) (ρ : σ → Nat) (A : Nat) (f : E → E) : Prop :=
  ∃ s a i, Fintype.card R < A * (Finset.univ.filter fun r => ρ s ≤ near op B M D e s a i r f).card

omit [Fintype E] in
theorem card_fast (hop : ∀ a b, op (op a b) a = b) {R : Type} [Fintype R] (e : E ≃ Fin N × R) (he : ∀ u, (e u).1 = ix u) {ρ : σ → Nat} {A D L : Nat}
    (hL : ∀ s, ρ s * d s ≤ L) (hD : ∀ s, d s ≤ D) {k : Nat} {f : E → E} (h : Reached op ix B M s₀ k f) (hh : ¬ Near op B M D e ρ A f)
    (S : Finset E) (hS : ∀ u ∈ S, Fast op ix B M s₀ d k (Function.update f (loopZ op ix B f k) u)) : A * S.card ≤ Fintype.card R * (A * L + N) := by
  classical
  obtain ⟨hn, τ, h1, h2⟩ := h
  have hfirst := h1 k le_rfl
  -- the content of the memory that allows for most
  obtain ⟨r₀, hr₀, hlim⟩ := Finset.exists_mem_eq_sup (Finset.range (τ k + 1)) ⟨0, by simp⟩ fun r => r + d (after M f r s₀)
  change limit M s₀ d f (τ k) = _ at hlim
  rw [Finset.mem_range] at hr₀
  obtain ⟨s, hs⟩ : ∃ s, after M f r₀ s₀ = s := ⟨_, rfl⟩
  rw [hs] at hlim
  obtain ⟨a, ha⟩ : ∃ a, τ k = r₀ + a := ⟨τ k - r₀, by omega⟩
  have hsoon (u : E) (hu : u ∈ S) : ∃ t, a < t ∧ t < d s ∧
      loopZ op ix B (Function.update f (loopZ op ix B f k) u) (k + 1) ∈ query M (after M (Function.update f (loopZ op ix B f k) u) t s) := by
    obtain ⟨t₀, t, ht₀, ht, hlt, hle⟩ := hS u hu
    rw [hn.Z u k le_rfl] at ht₀
    obtain rfl := ht₀.unique (hfirst.update le_rfl hfirst u)
    rw [limit_update hfirst _ le_rfl, hlim] at hle
    obtain ⟨t', rfl⟩ : ∃ t', t = r₀ + t' := ⟨t - r₀, by omega⟩
    refine ⟨t', by omega, by omega, ?_⟩
    have := ht.1
    rwa [after_add, after_update M f _ u _ _ fun t' ht' => hfirst.2 t' (by omega), hs] at this
  by_cases haD : a < D
  swap
  · have : S = ∅ := Finset.eq_empty_of_forall_notMem fun u hu => by
      obtain ⟨t, h3, h4, -⟩ := hsoon u hu
      have := hD s
      omega
    rw [this]
    simp
  have hs' : loopZ op ix B f k ∈ query M (after M f a s) := by
    rw [← hs, ← after_add, ← ha]
    exact hfirst.1
  obtain ⟨x, next, i, hM, hi⟩ : ∃ x next i, M (after M f a s) = .eval x next ∧ x i = loopZ op ix B f k := by
    cases e : M (after M f a s) with
    | result y => simp [query, e] at hs'
    | eval q next =>
      simp only [query, e, List.mem_ofFn] at hs'
      exact ⟨q, next, hs'.choose, rfl, hs'.choose_spec⟩
  let Rbad := Finset.univ.filter fun r => ρ s ≤ near op B M D e s ⟨a, haD⟩ i r f
  have hbad : A * Rbad.card ≤ Fintype.card R := by
    by_contra hc
    exact hh ⟨s, ⟨a, haD⟩, i, not_le.1 hc⟩
  have hP (r : R) : ∃ P : Finset Nat, r ∉ Rbad → P.card ≤ ρ s ∧ ∀ j < N, ∀ k ≤ D,
      entry f B j ∈ ((List.ofFn (searches op M D e s ⟨a, haD⟩ i r)).map (step f)^[k]).flatMap shown → ∃ b ∈ P, b ≤ j ∧ j ≤ b + k := by
    by_cases hr : r ∈ Rbad
    · exact ⟨∅, fun h => (h hr).elim⟩
    · have : near op B M D e s ⟨a, haD⟩ i r f < ρ s := not_le.1 fun h => hr (Finset.mem_filter.2 ⟨Finset.mem_univ _, h⟩)
      obtain ⟨P, hP⟩ := sources f B _ hn.1 this
      exact ⟨P, fun _ => hP⟩
  choose P hP using hP
  have key (u : E) (hu : u ∈ S) (hr : (e u).2 ∉ Rbad) : ∃ b ∈ P (e u).2, b ≤ (e u).1.1 ∧ (e u).1.1 < b + d s := by
    obtain ⟨t, hlt, hle, hq⟩ := hsoon u hu
    obtain ⟨t', rfl⟩ := Nat.exists_eq_add_of_le hlt.le
    have hDs := hD s
    rw [hn.next u] at hq
    have hx := approach_step (op := op) f i _ u _ a t' D (by omega) s (fun t' ht' => by
      rw [← hs, ← after_add]
      exact hfirst.2 _ (by omega)) x next hM hi hq
    rw [hop] at hx
    obtain ⟨b, hb, hb1, hb2⟩ := (hP (e u).2 hr).2 (ix u).1 (Fin.isLt _) (a + t') (by omega) (by
      rw [List.mem_flatMap]
      refine ⟨_, List.mem_map.2 ⟨_, List.mem_ofFn.2 ⟨ix u, rfl⟩, rfl⟩, ?_⟩
      rw [searches]
      rw [← he u, Prod.mk.eta, Equiv.symm_apply_apply, he u]
      exact hx)
    rw [he u]
    exact ⟨b, hb, hb1, by omega⟩
  let Q (r : R) : Finset (Fin N) := if r ∈ Rbad then Finset.univ else Finset.univ.filter fun j : Fin N => ∃ b ∈ P r, b ≤ j.1 ∧ j.1 < b + d s
  have h4 : S.card ≤ (Finset.univ.biUnion fun r : R => (Q r).image fun j => (j, r)).card := by
    rw [← Finset.card_map e.toEmbedding]
    refine Finset.card_le_card fun y hy => ?_
    rw [Finset.mem_map] at hy
    obtain ⟨u, hu, rfl⟩ := hy
    refine Finset.mem_biUnion.2 ⟨(e u).2, Finset.mem_univ _, Finset.mem_image.2 ⟨(e u).1, ?_, rfl⟩⟩
    simp only [Q]
    split_ifs with hr
    · exact Finset.mem_univ _
    · exact Finset.mem_filter.2 ⟨Finset.mem_univ _, key u hu hr⟩
  have h5 : S.card ≤ Fintype.card R * L + Rbad.card * N := by
    refine h4.trans (Finset.card_biUnion_le.trans ?_)
    refine (Finset.sum_le_sum (g := fun r => L + if r ∈ Rbad then N else 0) fun r _ => Finset.card_image_le.trans ?_).trans_eq ?_
    · simp only [Q]
      split_ifs with hr
      · simp
      · exact (card_near N (d s) _ _ (hP r hr).1).trans (hL s)
    · rw [Finset.sum_add_distrib, Finset.sum_const, Finset.sum_ite_mem, Finset.univ_inter, Finset.sum_const, smul_eq_mul, smul_eq_mul, Finset.card_univ]
  calc A * S.card ≤ A * (Fintype.card R * L + Rbad.card * N) := Nat.mul_le_mul_left _ h5
    _ = Fintype.card R * (A * L) + A * Rbad.card * N := by ring
    _ ≤ Fintype.card R * (A * L) + Fintype.card R * N := Nat.add_le_add_left (Nat.mul_le_mul_right _ hbad) _
    _ = Fintype.card R * (A * L + N) := by ring

theorem avg_near [Nonempty E] [Fintype σ] (hc : 1 ≤ c) {R : Type} [Fintype R] (hR : 0 < Fintype.card R) (e : E ≃ Fin N × R) (ρ : σ → Nat) (A D : Nat)
    (bad : (E → E) → Prop) [DecidablePred bad] (hbad : ∀ f, bad f → Near op B M D e ρ A f) :
    (avg fun f : E → E => if bad f then (1 : ℚ) else 0) ≤
      ∑ s, (D : ℚ) * c * A * (2 * ((c : ℚ) * N * (D + 1)) ^ 2 / Fintype.card E) ^ ρ s := by
  have hR0 : (0 : ℚ) < Fintype.card R := by exact_mod_cast hR
  let g (s : σ) (a : Fin D) (i : Fin c) (f : E → E) : ℚ := ∑ r, (A / Fintype.card R : ℚ) * if ρ s ≤ near op B M D e s a i r f then 1 else 0
  have hg (s : σ) (a : Fin D) (i : Fin c) (f : E → E) : 0 ≤ g s a i f := Finset.sum_nonneg fun r _ => by positivity
  have h1 (f : E → E) : (if bad f then (1 : ℚ) else 0) ≤ ∑ s, ∑ a, ∑ i, g s a i f := by
    by_cases hf : bad f
    · obtain ⟨s, a, i, h⟩ := hbad f hf
      have e1 : (1 : ℚ) ≤ g s a i f := by
        have h' : (Fintype.card R : ℚ) < A * (Finset.univ.filter fun r => ρ s ≤ near op B M D e s a i r f).card := by exact_mod_cast h
        simp only [g]
        rw [← Finset.mul_sum, Finset.sum_boole, div_mul_eq_mul_div, le_div_iff₀ hR0, one_mul]
        exact h'.le
      rw [if_pos hf]
      refine e1.trans ?_
      refine (Finset.single_le_sum (f := fun i => g s a i f) (fun i _ => hg s a i f) (Finset.mem_univ i)).trans ?_
      refine (Finset.single_le_sum (f := fun a => ∑ i, g s a i f) (fun a _ => Finset.sum_nonneg fun i _ => hg s a i f) (Finset.mem_univ a)).trans ?_
      exact Finset.single_le_sum (f := fun s => ∑ a, ∑ i, g s a i f)
        (fun s _ => Finset.sum_nonneg fun a _ => Finset.sum_nonneg fun i _ => hg s a i f) (Finset.mem_univ s)
    · rw [if_neg hf]
      exact Finset.sum_nonneg fun s _ => Finset.sum_nonneg fun a _ => Finset.sum_nonneg fun i _ => hg s a i f
  refine (avg_mono h1).trans ?_
  rw [avg_sum]
  refine Finset.sum_le_sum fun s _ => ?_
  rw [avg_sum]
  have h2 (a : Fin D) (i : Fin c) : avg (g s a i) ≤ A * (2 * ((c : ℚ) * N * (D + 1)) ^ 2 / Fintype.card E) ^ ρ s := by
    simp only [g]
    rw [avg_sum]
    refine (Finset.sum_le_sum (g := fun _ => (A / Fintype.card R : ℚ) * (2 * ((c : ℚ) * N * (D + 1)) ^ 2 / Fintype.card E) ^ ρ s) fun r _ => ?_).trans_eq ?_
    · rw [avg_scale]
      refine mul_le_mul_of_nonneg_left ?_ (by positivity)
      refine (avg_hits _ (c * N * (D + 1)) (2 * (c * N) * (D + 1)) (ρ s) (turns_within hc N B D _ _ ∅ (by simp) (by simp))).trans_eq ?_
      congr 2
      push_cast
      ring
    · rw [Finset.sum_const, Finset.card_univ, nsmul_eq_mul, ← mul_assoc, mul_div_cancel₀ _ hR0.ne']
  refine (Finset.sum_le_sum (g := fun _ => (c : ℚ) * (A * (2 * ((c : ℚ) * N * (D + 1)) ^ 2 / Fintype.card E) ^ ρ s)) fun a _ => ?_).trans_eq ?_
  · rw [avg_sum]
    refine (Finset.sum_le_sum fun i _ => h2 a i).trans_eq ?_
    rw [Finset.sum_const, Finset.card_univ, Fintype.card_fin, nsmul_eq_mul]
  · rw [Finset.sum_const, Finset.card_univ, Fintype.card_fin, nsmul_eq_mul]
    ring

/-- The probability of at least `m` successes in `n` attempts. -/
def tail (q : ℚ) : (n m : Nat) → ℚ
  | _, 0 => 1
  | 0, _ + 1 => 0
  | n + 1, m + 1 => q * tail q n m + (1 - q) * tail q n (m + 1)

theorem tail_le (q : ℚ) (h0 : 0 ≤ q) (h1 : q ≤ 1) (n m : Nat) : 0 ≤ tail q n m ∧ tail q n m ≤ n.choose m * q ^ m := by
  induction n generalizing m with
  | zero => cases m <;> simp [tail]
  | succ n ih =>
    cases m with
    | zero => simp [tail]
    | succ m =>
      rw [tail, Nat.choose_succ_succ, pow_succ]
      push_cast
      obtain ⟨a1, a2⟩ := ih m
      obtain ⟨b1, b2⟩ := ih (m + 1)
      rw [pow_succ] at b2
      have h3 := mul_nonneg h0 a1
      have h4 := mul_nonneg (sub_nonneg.2 h1) b1
      have h5 := mul_le_mul_of_nonneg_left a2 h0
      have h6 := mul_nonneg h0 b1
      exact ⟨by linarith, by linarith⟩

theorem avg_reached [Nonempty E] [Fintype σ] (hop : ∀ a b, op (op a b) a = b) {R : Type} [Fintype R] (e : E ≃ Fin N × R) (he : ∀ u, (e u).1 = ix u)
    {ρ : σ → Nat} {A D L : Nat} (hA : 0 < A) (hL : ∀ s, ρ s * d s ≤ L) (hD : ∀ s, d s ≤ D) (q ε : ℚ) (hq : q = (L : ℚ) / N + 1 / A) (hq1 : q ≤ 1)
    (hε : ∀ (bad : (E → E) → Prop) [DecidablePred bad], (∀ f, bad f → Near op B M D e ρ A f) → (avg fun f : E → E => if bad f then (1 : ℚ) else 0) ≤ ε)
    (k m : Nat) (ev : (E → E) → Prop) [DecidablePred ev] (hev : ∀ f, ev f → Reached op ix B M s₀ k f ∧ m ≤ quick op ix B M s₀ d k f) :
    (avg fun f : E → E => if ev f then (1 : ℚ) else 0) ≤ tail q k m + k * ε := by
  classical
  have hE : (0 : ℚ) < Fintype.card E := by exact_mod_cast Fintype.card_pos
  have hcard : (Fintype.card E : ℚ) = N * Fintype.card R := by
    rw [Fintype.card_congr e, Fintype.card_prod, Fintype.card_fin]
    push_cast
    rfl
  have hN0 : (0 : ℚ) < N := by
    have : 0 < N := (ix (Classical.arbitrary E)).pos
    exact_mod_cast this
  have hR0 : (0 : ℚ) < Fintype.card R := by
    rw [hcard] at hE
    exact pos_of_mul_pos_right hE hN0.le
  have hA0 : (0 : ℚ) < A := by exact_mod_cast hA
  have hq0 : 0 ≤ q := by rw [hq]; positivity
  have hε0 : 0 ≤ ε := by
    have := hε (fun _ => False) fun f h => h.elim
    simpa [avg_const] using this
  have hle : (avg fun f : E → E => if ev f then (1 : ℚ) else 0) ≤
      avg fun f : E → E => if Reached op ix B M s₀ k f ∧ m ≤ quick op ix B M s₀ d k f then (1 : ℚ) else 0 := by
    refine avg_mono fun f => ?_
    by_cases h : ev f
    · rw [if_pos h, if_pos (hev f h)]
    · rw [if_neg h]
      split_ifs <;> norm_num
  refine hle.trans ?_
  clear hle hev
  induction k generalizing m with
  | zero =>
    cases m with
    | zero =>
      rw [tail]
      refine (avg_le_one fun f => by split_ifs <;> norm_num).trans ?_
      simp
    | succ m =>
      simp [quick, tail, avg_const]
  | succ k ih =>
    cases m with
    | zero =>
      rw [tail]
      refine (avg_le_one fun f => by split_ifs <;> norm_num).trans ?_
      have : 0 ≤ ((k + 1 : Nat) : ℚ) * ε := by positivity
      linarith
    | succ m =>
      let G (m : Nat) : ℚ := avg fun f : E → E => if Reached op ix B M s₀ k f ∧ m ≤ quick op ix B M s₀ d k f then (1 : ℚ) else 0
      let Q (f : E → E) : Prop := Reached op ix B M s₀ k f ∧ quick op ix B M s₀ d k f = m
      have h1 (f : E → E) : (if Reached op ix B M s₀ (k + 1) f ∧ m + 1 ≤ quick op ix B M s₀ d (k + 1) f then (1 : ℚ) else 0) ≤
          (if Reached op ix B M s₀ k f ∧ m + 1 ≤ quick op ix B M s₀ d k f then (1 : ℚ) else 0) +
            if Q f then (if Fast op ix B M s₀ d k f then (1 : ℚ) else 0) else 0 := by
        have i1 (P : Prop) [Decidable P] : (0 : ℚ) ≤ if P then 1 else 0 := by split_ifs <;> norm_num
        have i2 : (0 : ℚ) ≤ if Q f then (if Fast op ix B M s₀ d k f then (1 : ℚ) else 0) else 0 := by split_ifs <;> norm_num
        by_cases h : Reached op ix B M s₀ (k + 1) f ∧ m + 1 ≤ quick op ix B M s₀ d (k + 1) f
        · rw [if_pos h]
          by_cases h' : m + 1 ≤ quick op ix B M s₀ d k f
          · rw [if_pos ⟨h.1.pred, h'⟩]
            linarith
          · have h2 := h.2
            rw [quick_succ] at h2
            have h3 : Fast op ix B M s₀ d k f := by
              by_contra hc
              rw [if_neg hc] at h2
              omega
            rw [if_pos h3] at h2
            rw [if_pos (show Q f from ⟨h.1.pred, by omega⟩), if_pos h3]
            have := i1 (Reached op ix B M s₀ k f ∧ m + 1 ≤ quick op ix B M s₀ d k f)
            linarith
        · rw [if_neg h]
          have := i1 (Reached op ix B M s₀ k f ∧ m + 1 ≤ quick op ix B M s₀ d k f)
          linarith
      have h2 : (avg fun f : E → E => if Q f then (if Fast op ix B M s₀ d k f then (1 : ℚ) else 0) else 0) ≤
          q * (G m - G (m + 1)) + ε := by
        rw [avg_at (fun f => loopZ op ix B f k) Q fun f u h => ⟨⟨h.1.update u, (h.1.quick u).trans h.2⟩, h.1.1.Z u k le_rfl⟩]
        have h3 : (avg fun f : E → E => if Q f then
            (avg fun u => if Fast op ix B M s₀ d k (Function.update f (loopZ op ix B f k) u) then (1 : ℚ) else 0) else 0) ≤
            avg fun f : E → E => q * (if Q f then 1 else 0) + if Near op B M D e ρ A f then 1 else 0 := by
          refine avg_mono fun f => ?_
          by_cases h : Q f
          · rw [if_pos h, if_pos h, mul_one]
            by_cases hb : Near op B M D e ρ A f
            · rw [if_pos hb]
              refine le_trans (avg_le_one fun u => by split_ifs <;> norm_num) ?_
              linarith
            · rw [if_neg hb, add_zero]
              have hc := card_fast (R := R) hop e he hL hD h.1 hb
                (Finset.univ.filter fun u => Fast op ix B M s₀ d k (Function.update f (loopZ op ix B f k) u)) fun u hu => (Finset.mem_filter.1 hu).2
              have hm := avg_mem_card (Finset.univ.filter fun u => Fast op ix B M s₀ d k (Function.update f (loopZ op ix B f k) u))
              simp only [Finset.mem_filter, Finset.mem_univ, true_and] at hm
              have hc' : (A : ℚ) * (Finset.univ.filter fun u => Fast op ix B M s₀ d k (Function.update f (loopZ op ix B f k) u)).card ≤
                  Fintype.card R * (A * L + N) := by exact_mod_cast hc
              rw [hm, hcard, hq, div_add_div _ _ hN0.ne' hA0.ne', div_le_div_iff₀ (by positivity) (by positivity)]
              calc ((Finset.univ.filter fun u => Fast op ix B M s₀ d k (Function.update f (loopZ op ix B f k) u)).card : ℚ) * (N * A) =
                    N * (A * (Finset.univ.filter fun u => Fast op ix B M s₀ d k (Function.update f (loopZ op ix B f k) u)).card) := by ring
                _ ≤ N * (Fintype.card R * (A * L + N)) := mul_le_mul_of_nonneg_left hc' hN0.le
                _ = _ := by ring
          · rw [if_neg h, if_neg h]
            split_ifs <;> norm_num
        refine h3.trans ?_
        rw [avg_add, avg_scale]
        have h4 := hε (Near op B M D e ρ A) fun f h => h
        have h5 : (avg fun f : E → E => if Q f then (1 : ℚ) else 0) = G m - G (m + 1) := by
          simp only [G]
          rw [avg_sub]
          congr 1
          funext f
          by_cases hr : Reached op ix B M s₀ k f
          · simp only [Q, hr, true_and]
            rcases lt_trichotomy (quick op ix B M s₀ d k f) m with hl | hl | hl
            · rw [if_neg (by omega), if_neg (by omega), if_neg (by omega), sub_zero]
            · rw [if_pos hl, if_pos (by omega), if_neg (by omega), sub_zero]
            · rw [if_neg (by omega), if_pos (by omega), if_pos (by omega), sub_self]
          · simp [Q, hr]
        rw [h5]
        linarith
      refine (avg_mono h1).trans ?_
      rw [avg_add, tail]
      have i1 : G m ≤ _ := ih m
      have i2 : G (m + 1) ≤ _ := ih (m + 1)
      have i3 : (avg fun f : E → E => if Reached op ix B M s₀ k f ∧ m + 1 ≤ quick op ix B M s₀ d k f then (1 : ℚ) else 0) = G (m + 1) := rfl
      rw [i3]
      have i4 := mul_le_mul_of_nonneg_left i1 hq0
      have i5 := mul_le_mul_of_nonneg_left i2 (sub_nonneg.2 hq1)
      push_cast
      linarith

/-! ### Rare events -/

theorem avg_start [Nonempty E] (hop' : ∀ a b, op (op a b) b = a) (hN : 1 ≤ N) (bad : (E → E) → Prop) [DecidablePred bad]
    (hbad : ∀ f, bad f → Distinct f B N ∧ ¬ New op ix B f 0) : (avg fun f : E → E => if bad f then (1 : ℚ) else 0) ≤ (N * N : Nat) / Fintype.card E := by
  have hV (f : E → E) (hf : Distinct f B N) (u : E) (i : Nat) (hi : i ≤ N - 1) :
      entry (Function.update f (entry f B (N - 1)) u) B i = entry f B i :=
    entry_update B f _ u (N - 1) (fun j hj => (hf (N - 1) (by omega) j hj).symm) i hi
  refine avg_at_le (fun f => entry f B (N - 1)) (fun f => Distinct f B N) (fun f u hf => ⟨fun i hi j hj => ?_, hV f hf u _ le_rfl⟩)
    (fun f => (Finset.range N ×ˢ Finset.range N).image fun q => op (entry f B q.1) (entry f B q.2)) (N * N) (fun f => ?_) bad
    (fun f hf => (hbad f hf).1) fun f u hf hb => ?_
  · rw [hV f hf u i (by omega), hV f hf u j (by omega)]
    exact hf i hi j hj
  · refine Finset.card_image_le.trans_eq ?_
    rw [Finset.card_product, Finset.card_range]
  · obtain ⟨h1, h2⟩ := hbad _ hb
    have h3 : ¬ ∀ j < N, loopZ op ix B (Function.update f (entry f B (N - 1)) u) 0 ≠ entry (Function.update f (entry f B (N - 1)) u) B j := fun h =>
      h2 ⟨h1, fun i hi => by rw [Nat.le_zero.1 hi]; exact h, fun i hi j hj => by omega⟩
    push Not at h3
    obtain ⟨j, hj, h3⟩ := h3
    have hX : loopX op ix B (Function.update f (entry f B (N - 1)) u) 0 = u := by
      rw [loopX]
      obtain ⟨n, rfl⟩ : ∃ n, N = n + 1 := ⟨N - 1, by omega⟩
      exact (congrArg _ (hV f hf u n le_rfl)).trans (Function.update_self _ _ _)
    rw [loopZ, hX, hV f hf u _ (by have := Fin.isLt (ix u); omega), hV f hf u j (by omega)] at h3
    refine Finset.mem_image.2 ⟨(j, (ix u).1), Finset.mem_product.2 ⟨Finset.mem_range.2 hj, Finset.mem_range.2 (Fin.isLt _)⟩, ?_⟩
    rw [← h3, hop']

theorem avg_later [Nonempty E] (hop' : ∀ a b, op (op a b) b = a) (T k : Nat) (hk : k + 1 ≤ N) (bad : (E → E) → Prop) [DecidablePred bad]
    (hbad : ∀ f, bad f → New op ix B f k ∧ (¬ New op ix B f (k + 1) ∨
      ∃ t ≤ T, (∀ t' < t, loopZ op ix B f k ∉ query M (after M f t' s₀)) ∧ loopZ op ix B f (k + 1) ∈ query M (after M f t s₀))) :
    (avg fun f : E → E => if bad f then (1 : ℚ) else 0) ≤ ((2 * N + c * (T + 1)) * N : Nat) / Fintype.card E := by
  let A (f : E → E) : Finset E := (Finset.range N).image (entry f B) ∪ (Finset.range (k + 1)).image (loopZ op ix B f) ∪
    (Finset.range (T + 1)).biUnion fun t => (query M (after M f t s₀)).toFinset
  have hA (f : E → E) : (A f).card ≤ 2 * N + c * (T + 1) := by
    have h1 : ((Finset.range N).image (entry f B)).card ≤ N := Finset.card_image_le.trans_eq (Finset.card_range _)
    have h2 : ((Finset.range (k + 1)).image (loopZ op ix B f)).card ≤ k + 1 := Finset.card_image_le.trans_eq (Finset.card_range _)
    have h3 : ((Finset.range (T + 1)).biUnion fun t => (query M (after M f t s₀)).toFinset).card ≤ c * (T + 1) := by
      refine Finset.card_biUnion_le.trans ((Finset.sum_le_card_nsmul _ _ c fun t _ => ?_).trans_eq (by simp [Nat.mul_comm]))
      refine (List.toFinset_card_le _).trans ?_
      rw [query]
      cases M (after M f t s₀) <;> simp
    have h4 := Finset.card_union_le ((Finset.range N).image (entry f B) ∪ (Finset.range (k + 1)).image (loopZ op ix B f))
      ((Finset.range (T + 1)).biUnion fun t => (query M (after M f t s₀)).toFinset)
    have h5 := Finset.card_union_le ((Finset.range N).image (entry f B)) ((Finset.range (k + 1)).image (loopZ op ix B f))
    simp only [A]
    omega
  refine avg_at_le (fun f => loopZ op ix B f k) (fun f => New op ix B f k) (fun f u hf => ⟨hf.update u, hf.Z u k le_rfl⟩)
    (fun f => (A f ×ˢ Finset.range N).image fun q => op q.1 (entry f B q.2)) _ (fun f => ?_) bad (fun f hf => (hbad f hf).1) fun f u hf hb => ?_
  · refine Finset.card_image_le.trans ?_
    rw [Finset.card_product, Finset.card_range]
    exact Nat.mul_le_mul_right _ (hA f)
  · obtain ⟨-, h⟩ := hbad _ hb
    suffices h' : loopZ op ix B (Function.update f (loopZ op ix B f k) u) (k + 1) ∈ A f by
      rw [hf.next u] at h'
      exact Finset.mem_image.2 ⟨(_, (ix u).1), Finset.mem_product.2 ⟨h', Finset.mem_range.2 (Fin.isLt _)⟩, hop' _ _⟩
    rcases h with h | ⟨t, ht, h1, h2⟩
    · by_contra hc
      simp only [A, Finset.mem_union, not_or] at hc
      have hn := hf.update u
      refine h ⟨hn.1, fun i hi j hj e => ?_, fun i hi j hj e => ?_⟩
      · rcases Nat.lt_or_ge i (k + 1) with hi' | hi'
        · exact hn.2.1 i (by omega) j hj e
        · obtain rfl : i = k + 1 := by omega
          rw [hf.entry u j hj.le] at e
          exact hc.1.1 (Finset.mem_image.2 ⟨j, Finset.mem_range.2 hj, e.symm⟩)
      · rcases Nat.lt_or_ge i (k + 1) with hi' | hi'
        · exact hn.2.2 i (by omega) j hj e
        · obtain rfl : i = k + 1 := by omega
          rw [hf.Z u j (by omega)] at e
          exact hc.1.2 (Finset.mem_image.2 ⟨j, Finset.mem_range.2 hj, e⟩)
    · rw [hf.Z u k le_rfl] at h1
      have e : after M (Function.update f (loopZ op ix B f k) u) t s₀ = after M f t s₀ := by
        have := after_update M (Function.update f (loopZ op ix B f k) u) (loopZ op ix B f k) (f (loopZ op ix B f k)) t s₀ h1
        rw [Function.update_idem, Function.update_eq_self] at this
        exact this.symm
      rw [e] at h2
      refine Finset.mem_union_right _ (Finset.mem_biUnion.2 ⟨t, Finset.mem_range.2 (by omega), ?_⟩)
      exact List.mem_toFinset.2 h2

theorem avg_last [Nonempty E] (T n : Nat) (bad : (E → E) → Prop) [DecidablePred bad]
    (hbad : ∀ f, bad f → New op ix B f n ∧ (∀ t < T, loopZ op ix B f n ∉ query M (after M f t s₀)) ∧
      outcome f M T s₀ = some (loopX op ix B f (n + 1))) :
    (avg fun f : E → E => if bad f then (1 : ℚ) else 0) ≤ (1 : Nat) / Fintype.card E := by
  refine avg_at_le (fun f => loopZ op ix B f n) (fun f => New op ix B f n ∧ ∀ t < T, loopZ op ix B f n ∉ query M (after M f t s₀))
    (fun f u hf => ⟨⟨hf.1.update u, fun t ht => ?_⟩, hf.1.Z u n le_rfl⟩) (fun f => (outcome f M T s₀).toFinset) 1 (fun f => ?_) bad
    (fun f hf => ⟨(hbad f hf).1, (hbad f hf).2.1⟩) fun f u hf hb => ?_
  · rw [hf.1.Z u n le_rfl, after_update M f _ u t s₀ fun t' ht' => hf.2 t' (by omega)]
    exact hf.2 t ht
  · cases outcome f M T s₀ <;> simp
  · obtain ⟨-, -, h⟩ := hbad _ hb
    have hX : loopX op ix B (Function.update f (loopZ op ix B f n) u) (n + 1) = u := by
      have := hf.1.Z u n le_rfl
      rw [loopZ] at this
      rw [loopX, this]
      exact Function.update_self _ _ _
    rw [hX, outcome_update M f _ u T s₀ hf.2] at h
    rw [h]
    simp

/-! ### The result -/

/-- The evaluations of the second loop come one after the other, in the first `T` steps, and between one and the next there is, for all but
few of them, as much time as there is from any content of the memory before. -/
def Slow (M : σ → Act c σ E) (s₀ : σ) (d : σ → Nat) (n m T : Nat) (f : E → E) : Prop :=
  ∃ τ : Nat → Nat, ∃ I ⊆ Finset.range n, (∀ i ≤ n, τ i < T ∧ query M (after M f (τ i) s₀) ≠ []) ∧ (∀ i < n, τ i < τ (i + 1)) ∧ n < I.card + m ∧
    ∀ i ∈ I, ∀ r ≤ τ i, r + d (after M f r s₀) ≤ τ (i + 1)

theorem memory [Nonempty E] [Fintype σ] (hop : ∀ a b, op (op a b) a = b) (hop' : ∀ a b, op (op a b) b = a) {R : Type} [Fintype R]
    (e : E ≃ Fin N × R) (he : ∀ u, (e u).1 = ix u) {ρ : σ → Nat} {A D L : Nat} (hA : 0 < A) (hL : ∀ s, ρ s * d s ≤ L) (hD : ∀ s, d s ≤ D) (q ε : ℚ)
    (hq : q = (L : ℚ) / N + 1 / A) (hq1 : q ≤ 1)
    (hε : ∀ (bad : (E → E) → Prop) [DecidablePred bad], (∀ f, bad f → Near op B M D e ρ A f) → (avg fun f : E → E => if bad f then (1 : ℚ) else 0) ≤ ε)
    (m T : Nat) (ev : (E → E) → Prop) [DecidablePred ev] (hev : ∀ f, ev f → outcome f M T s₀ = some (loopX op ix B f N))
    (hslow : ∀ f, ev f → ¬ Slow M s₀ d (N - 1) m T f) :
    (avg fun f : E → E => if ev f then (1 : ℚ) else 0) ≤
      ((N - 1).choose m * q ^ m + (N - 1 : Nat) * ε) + (N : ℚ) ^ 2 * (2 * N + c * (T + 1) + 3) / Fintype.card E := by
  classical
  obtain ⟨n, rfl⟩ : ∃ n, N = n + 1 := ⟨N - 1, by have := (ix (Classical.arbitrary E)).pos; omega⟩
  let bad₁ (f : E → E) : Prop := ¬ Distinct f B (n + 1)
  let bad₂ (f : E → E) : Prop := Distinct f B (n + 1) ∧ ¬ New op ix B f 0
  let bad₃ (k : Nat) (f : E → E) : Prop := New op ix B f k ∧ (¬ New op ix B f (k + 1) ∨
      ∃ t ≤ T, (∀ t' < t, loopZ op ix B f k ∉ query M (after M f t' s₀)) ∧ loopZ op ix B f (k + 1) ∈ query M (after M f t s₀))
  let bad₄ (f : E → E) : Prop := New op ix B f n ∧ (∀ t < T, loopZ op ix B f n ∉ query M (after M f t s₀)) ∧
      outcome f M T s₀ = some (loopX op ix B f (n + 1))
  have cover (f : E → E) (hf : ev f) : bad₁ f ∨ bad₂ f ∨ (∃ k ∈ Finset.range n, bad₃ k f) ∨ bad₄ f ∨
      (Reached op ix B M s₀ n f ∧ m ≤ quick op ix B M s₀ d n f) := by
    by_contra hc
    rw [not_or, not_or, not_or, not_or] at hc
    obtain ⟨h1, h2, h3, h4, h5⟩ := hc
    push Not at h3
    have hn (k : Nat) (hk : k ≤ n) : New op ix B f k := by
      induction k with
      | zero => exact by_contra fun h => h2 ⟨by_contra h1, h⟩
      | succ k ih =>
        by_contra h
        exact h3 k (Finset.mem_range.2 (by omega)) ⟨ih (by omega), .inl h⟩
    have hlast : ∃ t < T, loopZ op ix B f n ∈ query M (after M f t s₀) := by
      by_contra h
      push Not at h
      exact h4 ⟨hn n le_rfl, h, hev f hf⟩
    have hfirst (j : Nat) (hj : j ≤ n) : ∃ t < T, First M s₀ f (loopZ op ix B f (n - j)) t := by
      induction j with
      | zero =>
        obtain ⟨t, ht, h⟩ := hlast
        obtain ⟨t', ht', h'⟩ := First.exists h
        exact ⟨t', by omega, h'⟩
      | succ j ih =>
        obtain ⟨t, ht, h⟩ := ih (by omega)
        have h' : ∃ t' < t, loopZ op ix B f (n - (j + 1)) ∈ query M (after M f t' s₀) := by
          by_contra hc
          push Not at hc
          refine h3 (n - (j + 1)) (Finset.mem_range.2 (by omega)) ⟨hn _ (by omega), .inr ⟨t, by omega, hc, ?_⟩⟩
          rw [show n - (j + 1) + 1 = n - j by omega]
          exact h.1
        obtain ⟨t', ht', h'⟩ := h'
        obtain ⟨t'', ht'', h''⟩ := First.exists h'
        exact ⟨t'', by omega, h''⟩
    have hfirst' (i : Nat) : ∃ t, i ≤ n → t < T ∧ First M s₀ f (loopZ op ix B f i) t := by
      by_cases hi : i ≤ n
      · obtain ⟨t, ht, h⟩ := hfirst (n - i) (by omega)
        rw [show n - (n - i) = i by omega] at h
        exact ⟨t, fun _ => ⟨ht, h⟩⟩
      · exact ⟨0, fun h => (hi h).elim⟩
    choose τ hτ using hfirst'
    have hmono (i : Nat) (hi : i < n) : τ i < τ (i + 1) := by
      obtain ⟨ht1, hf1⟩ := hτ (i + 1) (by omega)
      obtain ⟨-, hf0⟩ := hτ i (by omega)
      by_contra hc
      refine h3 i (Finset.mem_range.2 hi) ⟨hn i (by omega), .inr ⟨τ (i + 1), by omega, fun t' ht' => hf0.2 t' (by omega), hf1.1⟩⟩
    have hfst (i : Nat) (hi : i ≤ n) := (hτ i hi).2
    have hfast (i : Nat) (hi : i < n) : Fast op ix B M s₀ d i f ↔ τ (i + 1) < limit M s₀ d f (τ i) := by
      constructor
      · rintro ⟨t₀, t, g1, g2, -, g3⟩
        obtain rfl := g1.unique (hfst i hi.le)
        obtain rfl := g2.unique (hfst (i + 1) hi)
        exact g3
      · exact fun h => ⟨τ i, τ (i + 1), hfst i hi.le, hfst (i + 1) hi, hmono i hi, h⟩
    refine h5 ⟨⟨hn n le_rfl, τ, hfst, hmono⟩, ?_⟩
    by_contra hc
    have hsum := Finset.card_filter_add_card_filter_not (s := Finset.range n) (fun i => Fast op ix B M s₀ d i f)
    rw [Finset.card_range] at hsum
    refine hslow f hf ⟨τ, (Finset.range n).filter fun i => ¬ Fast op ix B M s₀ d i f, Finset.filter_subset _ _,
      fun i hi => ⟨(hτ i hi).1, List.ne_nil_of_mem (hfst i hi).1⟩, hmono, ?_, fun i hi r hr => ?_⟩
    · rw [quick] at hc
      rw [Nat.add_sub_cancel]
      omega
    · rw [Finset.mem_filter, Finset.mem_range] at hi
      rw [hfast i hi.1, not_lt] at hi
      exact (Finset.le_sup (f := fun r => r + d (after M f r s₀)) (Finset.mem_range.2 (by omega : r < τ i + 1))).trans hi.2
  have hle (f : E → E) : (if ev f then (1 : ℚ) else 0) ≤ (if bad₁ f then 1 else 0) + ((if bad₂ f then 1 else 0) +
      ((∑ k ∈ Finset.range n, if bad₃ k f then 1 else 0) + ((if bad₄ f then 1 else 0) +
        if Reached op ix B M s₀ n f ∧ m ≤ quick op ix B M s₀ d n f then 1 else 0))) := by
    have i1 (P : Prop) [Decidable P] : (0 : ℚ) ≤ if P then 1 else 0 := by split_ifs <;> norm_num
    have s3 : (0 : ℚ) ≤ ∑ k ∈ Finset.range n, if bad₃ k f then 1 else 0 := Finset.sum_nonneg fun _ _ => i1 _
    have j5 := i1 (Reached op ix B M s₀ n f ∧ m ≤ quick op ix B M s₀ d n f)
    have j1 := i1 (bad₁ f)
    have j2 := i1 (bad₂ f)
    have j4 := i1 (bad₄ f)
    by_cases hf : ev f
    · rw [if_pos hf]
      rcases cover f hf with h | h | ⟨k, hk, h⟩ | h | h
      · rw [if_pos h]
        linarith
      · rw [if_pos h]
        linarith
      · have := Finset.single_le_sum (f := fun k => if bad₃ k f then (1 : ℚ) else 0) (fun _ _ => i1 _) hk
        simp only [if_pos h] at this
        linarith
      · rw [if_pos h]
        linarith
      · rw [if_pos h]
        linarith
    · rw [if_neg hf]
      linarith
  refine (avg_mono hle).trans ?_
  rw [avg_add, avg_add, avg_add, avg_add, avg_sum]
  have b1 := avg_twice B (n + 1) bad₁ fun f h => h
  have b2 := avg_start (op := op) (ix := ix) (B := B) hop' (by omega) bad₂ fun f h => h
  have b3 : ∑ k ∈ Finset.range n, (avg fun f => if bad₃ k f then (1 : ℚ) else 0) ≤ n * (((2 * (n + 1) + c * (T + 1)) * (n + 1) : Nat) / Fintype.card E) := by
    refine (Finset.sum_le_card_nsmul _ _ _ fun k hk => avg_later (op := op) (ix := ix) (B := B) (M := M) (s₀ := s₀) hop' T k ?_ (bad₃ k) fun f h => h).trans_eq ?_
    · rw [Finset.mem_range] at hk
      omega
    · rw [Finset.card_range, nsmul_eq_mul]
  have b4 := avg_last (op := op) (ix := ix) (B := B) (M := M) (s₀ := s₀) T n bad₄ fun f h => h
  have b5 := avg_reached (op := op) (ix := ix) (B := B) (M := M) (s₀ := s₀) hop e he hA hL hD q ε hq hq1 hε n m
    (fun f => Reached op ix B M s₀ n f ∧ m ≤ quick op ix B M s₀ d n f) fun f h => h
  have b6 := (tail_le q (by rw [hq]; positivity) hq1 n m).2
  have hsum : ((n + 1 : Nat) : ℚ) * (n + 1 : Nat) / Fintype.card E + (((n + 1) * (n + 1) : Nat) / Fintype.card E +
      (n * (((2 * (n + 1) + c * (T + 1)) * (n + 1) : Nat) / Fintype.card E) + (1 : Nat) / Fintype.card E)) ≤
      ((n + 1 : Nat) : ℚ) ^ 2 * (2 * (n + 1 : Nat) + c * (T + 1) + 3) / Fintype.card E := by
    rw [← mul_div_assoc, ← add_div, ← add_div, ← add_div]
    refine div_le_div_of_nonneg_right ?_ (by positivity)
    push_cast
    have hn0 : (0 : ℚ) ≤ n := by positivity
    have hT0 : (0 : ℚ) ≤ c * (T + 1) := by positivity
    nlinarith [mul_nonneg hn0 hT0, mul_nonneg hn0 hn0, mul_nonneg (mul_nonneg hn0 hn0) hn0, mul_nonneg (mul_nonneg hn0 hn0) hT0]
  rw [Nat.add_sub_cancel]
  linarith

end

end Spec.TableMachine
