import Verif.Rust

/-! Lemmas about the Rust prelude: binds, indexing, loops. -/

namespace Verif

@[simp] theorem ok_bind {α β : Type} (a : α) (f : α → M β) :
    ((Except.ok a : M α) >>= f) = f a := rfl

@[simp] theorem error_bind {α β : Type} (e : Panic) (f : α → M β) :
    ((Except.error e : M α) >>= f) = .error e := rfl

@[simp] theorem pure_eq_ok {α : Type} (a : α) : (pure a : M α) = .ok a := rfl

theorem vidx_ok {α : Type} {n : Nat} (v : Vector α n) (i : Nat) (h : i < n) :
    vidx v i = .ok v[i] := by simp [vidx, h]

theorem vupd_ok {α : Type} {n : Nat} (v : Vector α n) (i : Nat) (x : α) (h : i < n) :
    vupd v i x = .ok (v.set i x) := by simp [vupd, h]

theorem idx_ok {α : Type} (xs : List α) (i : Nat) (h : i < xs.length) :
    idx xs i = .ok xs[i] := by simp [idx, h]

theorem idx_err {α : Type} (xs : List α) (i : Nat) (h : xs.length ≤ i) :
    idx xs i = .error .index := by simp [idx, h]

theorem upd_ok {α : Type} (xs : List α) (i : Nat) (x : α) (h : i < xs.length) :
    upd xs i x = .ok (xs.set i x) := by simp [upd, h]

/-! ### Loops -/

@[simp] theorem forEach_nil {α σ : Type} (s : σ) (body : α → σ → M σ) : forEach [] s body = .ok s := rfl

theorem forEach_cons {α σ : Type} (x : α) (xs : List α) (s : σ) (body : α → σ → M σ) :
    forEach (x :: xs) s body = (body x s >>= fun s => forEach xs s body) := by
  simp [forEach]

theorem forEach_append {α σ : Type} (xs ys : List α) (s : σ) (body : α → σ → M σ) :
    forEach (xs ++ ys) s body = (forEach xs s body >>= fun s => forEach ys s body) := by
  simp [forEach]

/-- A loop whose body never panics on states satisfying an invariant computes a fold. -/
theorem forEach_eq_foldl {α σ : Type} (xs : List α) (s : σ) (body : α → σ → M σ) (f : σ → α → σ)
    (h : ∀ x ∈ xs, ∀ s, body x s = .ok (f s x)) : forEach xs s body = .ok (xs.foldl f s) := by
  induction xs generalizing s with
  | nil => rfl
  | cons x xs ih =>
    rw [forEach_cons, h x (by simp)]
    simp only [ok_bind, List.foldl_cons]
    exact ih _ (fun y hy => h y (by simp [hy]))

theorem forRange_eq_foldl {σ : Type} (lo hi : Nat) (s : σ) (body : Nat → σ → M σ) (f : σ → Nat → σ)
    (h : ∀ i, lo ≤ i → i < hi → ∀ s, body i s = .ok (f s i)) :
    forRange lo hi s body = .ok ((List.range' lo (hi - lo)).foldl f s) := by
  apply forEach_eq_foldl
  intro x hx
  rw [List.mem_range'_1] at hx
  exact h x hx.1 (by omega)

theorem forRange_self {σ : Type} (lo hi : Nat) (h : hi ≤ lo) (s : σ) (body : Nat → σ → M σ) :
    forRange lo hi s body = .ok s := by
  simp [forRange, Nat.sub_eq_zero_of_le h]

theorem forRange_step {σ : Type} (lo hi : Nat) (h : lo < hi) (s : σ) (body : Nat → σ → M σ) :
    forRange lo hi s body = (body lo s >>= fun s => forRange (lo + 1) hi s body) := by
  obtain ⟨k, rfl⟩ : ∃ k, hi = lo + 1 + k := ⟨hi - (lo + 1), by omega⟩
  simp only [forRange]
  rw [show lo + 1 + k - lo = k + 1 by omega, show lo + 1 + k - (lo + 1) = k by omega,
    List.range'_succ, forEach_cons]

theorem forRange_last {σ : Type} (lo hi : Nat) (h : lo ≤ hi) (s : σ) (body : Nat → σ → M σ) :
    forRange lo (hi + 1) s body = (forRange lo hi s body >>= fun s => body hi s) := by
  simp only [forRange]
  rw [show hi + 1 - lo = (hi - lo) + 1 by omega, List.range'_concat, forEach_append]
  congr 1
  funext s
  rw [forEach_cons]
  simp only [Nat.one_mul, show lo + (hi - lo) = hi by omega, forEach_nil]
  cases body hi s <;> rfl

/-- Invariant rule for `for i in lo..hi`. -/
theorem forRange_inv {σ : Type} (lo hi : Nat) (hle : lo ≤ hi) (s : σ) (body : Nat → σ → M σ)
    (P : Nat → σ → Prop) (h0 : P lo s)
    (hstep : ∀ i s, lo ≤ i → i < hi → P i s → ∃ s', body i s = .ok s' ∧ P (i + 1) s') :
    ∃ s', forRange lo hi s body = .ok s' ∧ P hi s' := by
  obtain ⟨k, rfl⟩ : ∃ k, hi = lo + k := ⟨hi - lo, by omega⟩
  induction k with
  | zero => exact ⟨s, forRange_self _ _ (by omega) _ _, h0⟩
  | succ k ih =>
    obtain ⟨s', hs', hP⟩ := ih (by omega) (fun i s h1 h2 => hstep i s h1 (by omega))
    obtain ⟨s'', hs'', hP'⟩ := hstep (lo + k) s' (by omega) (by omega) hP
    refine ⟨s'', ?_, hP'⟩
    rw [← Nat.add_assoc, forRange_last _ _ (by omega), hs']
    simpa using hs''

/-- Invariant rule for `for x in xs`. -/
theorem forEach_inv {α σ : Type} (xs : List α) (s : σ) (body : α → σ → M σ)
    (P : List α → σ → Prop) (h0 : P [] s)
    (hstep : ∀ pre x s, P pre s → ∃ s', body x s = .ok s' ∧ P (pre ++ [x]) s') :
    ∃ s', forEach xs s body = .ok s' ∧ P xs s' := by
  suffices ∀ pre s, P pre s → ∃ s', forEach xs s body = .ok s' ∧ P (pre ++ xs) s' by
    simpa using this [] s h0
  induction xs with
  | nil => intro pre s h; exact ⟨s, rfl, by simpa using h⟩
  | cons x xs ih =>
    intro pre s h
    obtain ⟨s', hs', hP⟩ := hstep pre x s h
    obtain ⟨s'', hs'', hP'⟩ := ih _ _ hP
    refine ⟨s'', ?_, by simpa using hP'⟩
    rw [forEach_cons, hs']
    simpa using hs''

/-! ### `usize` arithmetic -/

theorem Target.bits_cases (T : Target) : T.bits = 32 ∨ T.bits = 64 := by
  rcases T with ⟨w, c⟩
  cases w <;> simp [Target.bits, Width.bits]

theorem Target.bits_ge (T : Target) : 32 ≤ T.bits := by rcases T.bits_cases with h | h <;> omega

theorem Target.two_pow_ge (T : Target) : 2 ^ 32 ≤ 2 ^ T.bits :=
  Nat.pow_le_pow_right (by decide) T.bits_ge

theorem Target.add_ok (T : Target) {a b : Nat} (h : a + b < 2 ^ T.bits) : T.add a b = .ok (a + b) := by
  simp [Target.add, h]

theorem Target.mul_ok (T : Target) {a b : Nat} (h : a * b < 2 ^ T.bits) : T.mul a b = .ok (a * b) := by
  simp [Target.mul, h]

theorem Target.sub_ok (T : Target) {a b : Nat} (h : b ≤ a) : T.sub a b = .ok (a - b) := by
  simp [Target.sub, h]

theorem Target.rem_ok (T : Target) {a b : Nat} (h : b ≠ 0) : T.rem a b = .ok (a % b) := by
  simp [Target.rem, h]

theorem Target.reserve_ok (T : Target) {s n : Nat} (h : n * s ≤ T.isizeMax) : T.reserve s n = .ok () := by
  simp [Target.reserve, h]

end Verif
