import Verif.Proof.Scrypt

/-! Properties C16-C21: scrypt. -/

namespace Verif.Props.Scrypt
open Verif Verif.Sha256 Verif.Pbkdf2 Verif.Scrypt

/-! ### C16 -/

theorem blockMix_length (r : Nat) (B : List U8) : (Spec.Scrypt.blockMix r B).length = 128 * r := by
  have h : ∀ f : Nat → Nat, ((List.range r).flatMap fun i => Spec.Scrypt.Y r B (f i)).length = 64 * r := by
    intro f
    rw [List.flatMap_def, flatten_const_length _ 64]
    · rw [List.length_map, List.length_range, Nat.mul_comm]
    · intro x hx
      rw [List.mem_map] at hx
      obtain ⟨i, _, rfl⟩ := hx
      exact Y_length _ _ _
  rw [Spec.Scrypt.blockMix, List.length_append, h (fun i => 2 * i), h (fun i => 2 * i + 1)]
  omega

theorem roMix_length (r N : Nat) (hN : 1 ≤ N) (B : List U8) : (Spec.Scrypt.roMix r N B).length = 128 * r := by
  obtain ⟨k, rfl⟩ : ∃ k, N = k + 1 := ⟨N - 1, by omega⟩
  exact blockMix_length _ _

theorem scryptWith_congr (k1 k2 : List U8 → List U8 → Nat → List U8) (P S : List U8) (N r p len : Nat) (hN : 1 ≤ N)
    (h1 : ∀ n, k1 P S n = k2 P S n) (h2 : ∀ S' n, S'.length = p * 128 * r → k1 P S' n = k2 P S' n) :
    Spec.Scrypt.scryptWith k1 P S N r p len = Spec.Scrypt.scryptWith k2 P S N r p len := by
  rw [Spec.Scrypt.scryptWith, Spec.Scrypt.scryptWith, h1]
  apply h2
  rw [List.flatMap_def, flatten_const_length _ (128 * r)]
  · rw [List.length_map, List.length_range, Nat.mul_assoc]
  · intro x hx
    rw [List.mem_map] at hx
    obtain ⟨i, _, rfl⟩ := hx
    exact roMix_length _ _ hN _

theorem lanes_eq (T : Target) (p r : Nat) (hr : 1 ≤ r) (h : p * 128 * r < 2 ^ T.bits) :
    p * 128 * r % 2 ^ T.bits / (128 * r) = p := by
  rw [Nat.mod_eq_of_lt h, Nat.mul_assoc, Nat.mul_div_cancel _ (by omega)]

theorem chunk_lt (T : Target) (p r : Nat) (hp : 1 ≤ p) (h : p * 128 * r < 2 ^ T.bits) : 128 * r < 2 ^ T.bits := by
  have : 128 * r ≤ p * 128 * r := by
    rw [Nat.mul_assoc]; exact Nat.le_mul_of_pos_left _ hp
  omega

/-- **C16.** For `r ≥ 1`, `n` a power of two and `p ≥ 1`, `derive` returns `Ok` and fills `out` with the scrypt key of
RFC 7914. The size hypotheses say that the working memory (`p * 128 * r` bytes of lanes and a table of `n` vectors of three
machine words) stays below `isize::MAX`, and that the bit lengths of everything that is hashed fit a `usize`. -/
theorem C16_scrypt_correct (T : Target) (r n p : Nat) (P S out : List U8) (hr : 1 ≤ r) (hn : ∃ k, n = 2 ^ k) (hp : 1 ≤ p)
    (hmem : p * 128 * r ≤ T.isizeMax) (htab : n * T.vecSize ≤ T.isizeMax) (hP : 8 * P.length < 2 ^ T.bits)
    (hS : 8 * (64 + S.length + 4) < 2 ^ T.bits) (hB : 8 * (64 + p * 128 * r + 4) < 2 ^ T.bits)
    (hout : out.length ≤ T.isizeMax) :
    (Scrypt.new r n p).derive T P S out = .ok (Spec.Scrypt.scrypt P S n r p out.length, .ok ()) := by
  have hlt : p * 128 * r < 2 ^ T.bits := Nat.lt_of_le_of_lt hmem (isizeMax_lt T)
  have hq := lanes_eq T p r hr hlt
  have hn1 : 1 ≤ n := by obtain ⟨k, h⟩ := hn; rw [h]; exact Nat.two_pow_pos k
  rw [derive_eq T (Scrypt.new r n p) P S out hr hn hp (.inr hlt) (chunk_lt T p r hp hlt)
    (by show p * 128 * r % _ ≤ _; rw [Nat.mod_eq_of_lt hlt]; exact hmem) (.inr htab) (.inr hP) (.inr (by omega))
    (.inr (by show 8 * (68 + p * 128 * r % 2 ^ T.bits / (128 * r) * 128 * r) < _; rw [hq]; omega)) hout]
  show Except.ok (Spec.Scrypt.scryptWith (kdfOn T) P S n r (p * 128 * r % 2 ^ T.bits / (128 * r)) out.length, _) = _
  rw [hq, Spec.Scrypt.scrypt]
  congr 2
  apply scryptWith_congr _ _ _ _ _ _ _ _ hn1
  · intro m; exact pbkdf2_prfOn_eq T P S 1 m hP (by omega)
  · intro S' m hS'; exact pbkdf2_prfOn_eq T P S' 1 m hP (by omega)

/-- The parameters of the crate's usage example (`r = 1, n = 128, p = 1`) meet the hypotheses on every target. -/
example (T : Target) : (Scrypt.new 1 128 1).derive T [1, 2, 3] [4] [0, 0, 0, 0, 0, 0, 0, 0] =
    .ok (Spec.Scrypt.scrypt [1, 2, 3] [4] 128 1 1 8, .ok ()) := by
  have := T.two_pow_ge
  have hi : 2 ^ 31 - 1 ≤ T.isizeMax := by
    rw [Target.isizeMax]; rcases T.bits_cases with h | h <;> rw [h] <;> decide
  have hv := vecSize_le T
  exact C16_scrypt_correct T 1 128 1 [1, 2, 3] [4] [0, 0, 0, 0, 0, 0, 0, 0] (by decide) ⟨7, rfl⟩ (by decide)
    (by omega) (by omega) (by simp only [List.length_cons, List.length_nil]; omega)
    (by simp only [List.length_cons, List.length_nil]; omega) (by omega)
    (by simp only [List.length_cons, List.length_nil]; omega)

theorem mapM_err {α β : Type} (x : α) (l : List α) (f : α → M β) (e : Panic) (h : f x = .error e) :
    (x :: l).mapM f = .error e := by
  rw [List.mapM_cons, h, error_bind]

/-- **C16.** With overflow checks, and for accepted parameters, `derive` returns (rather than panics) exactly when the
memory sizes and bit lengths fit. -/
theorem C16_returns_iff (T : Target) (hc : T.checks = true) (r n p : Nat) (P S out : List U8) (hr : 1 ≤ r)
    (hn : ∃ k, n = 2 ^ k) (hp : 1 ≤ p) (hout : out.length ≤ T.isizeMax) :
    (∃ res, (Scrypt.new r n p).derive T P S out = .ok res) ↔
      p * 128 * r ≤ T.isizeMax ∧ n * T.vecSize ≤ T.isizeMax ∧ 8 * P.length < 2 ^ T.bits ∧
        8 * (64 + S.length + 4) < 2 ^ T.bits ∧ (out = [] ∨ 8 * (64 + p * 128 * r + 4) < 2 ^ T.bits) := by
  constructor
  · rintro ⟨res, h⟩
    have hsz : p * 128 * r < 2 ^ T.bits := by
      apply Classical.byContradiction
      intro hbig
      rw [derive_steps T _ P S out hr hn hp] at h
      have he := size_err T p r hc (by omega)
      simp only [← bind_assoc] at h he
      rw [show (Scrypt.new r n p).p = p from rfl, show (Scrypt.new r n p).r = r from rfl, he, error_bind] at h
      cases h
    have hq := lanes_eq T p r hr hsz
    have hcs := chunk_lt T p r hp hsz
    have hstep : steps T (Scrypt.new r n p) P S out (p * 128 * r) (128 * r) = .ok res := by
      rw [derive_steps T _ P S out hr hn hp] at h
      have he := size_ok T p r hr (.inr hsz)
      simp only [← bind_assoc] at h he
      rw [show (Scrypt.new r n p).p = p from rfl, show (Scrypt.new r n p).r = r from rfl, he, ok_bind,
        T.mul_ok (show 2 * Scrypt.BLOCK_SIZE * r < _ from hcs), Nat.mod_eq_of_lt hsz] at h
      exact h
    have hmem : p * 128 * r ≤ T.isizeMax := by
      apply Classical.byContradiction
      intro hbig
      rw [steps, Target.reserve, if_neg (by omega), error_bind] at hstep
      cases hstep
    have hpos : 0 < p * 128 * r := Nat.mul_pos (Nat.mul_pos (by omega) (by decide)) (by omega)
    have hfit : 8 * P.length < 2 ^ T.bits ∧ 8 * (68 + S.length) < 2 ^ T.bits := by
      apply Classical.byContradiction
      intro hbig
      rw [steps, T.reserve_ok (by omega), ok_bind] at hstep
      simp only [] at hstep
      rw [pbkdf2_err T P S _ _ hc (by omega) (by rw [List.length_replicate]; exact hpos), error_bind] at hstep
      cases hstep
    have htab : n * T.vecSize ≤ T.isizeMax := by
      apply Classical.byContradiction
      intro hbig
      obtain ⟨m, rfl⟩ : ∃ m, p = m + 1 := ⟨p - 1, by omega⟩
      rw [steps, T.reserve_ok (by omega), ok_bind] at hstep
      simp only [] at hstep
      rw [kdf_ok T P S _ (.inr hfit.1) (.inr hfit.2) (by rw [List.length_replicate]; exact hmem), ok_bind,
        List.length_replicate, chunksExact_ok _ _ (by omega), ok_bind, kdfOn_length,
        show (m + 1) * 128 * r / (128 * r) = m + 1 by rw [Nat.mul_assoc, Nat.mul_div_cancel _ (by omega)],
        mapM_ok _ _ (fun chunk => (List.range (chunk.length / 64)).map fun i => (chunk.drop (64 * i)).take 64)
          (fun x _ => chunksExact_ok x 64 (by decide)), ok_bind, List.range_succ_eq_map, List.map_cons, List.map_cons,
        mapM_err _ _ _ .capacity, error_bind] at hstep
      · cases hstep
      · rw [Scrypt.ro_mix, Target.reserve, if_neg (show ¬ (Scrypt.new r n (m + 1)).n * T.vecSize ≤ T.isizeMax from hbig),
          error_bind]
    refine ⟨hmem, htab, hfit.1, by omega, ?_⟩
    apply Classical.byContradiction
    intro hbig
    simp only [not_or] at hbig
    obtain ⟨g, hg, hgl, _⟩ := steps_lanes T (Scrypt.new r n p) P S out (p * 128 * r) hr hn hmem
      (.inr htab) (.inr hfit.1) (.inr hfit.2)
    rw [show (Scrypt.new r n p).r = r from rfl] at hg hgl
    rw [hg, pbkdf2_err T P g _ out hc (by
      rw [hgl, show p * 128 * r / (128 * r) = p by rw [Nat.mul_assoc, Nat.mul_div_cancel _ (by omega)]]; omega)
      (List.length_pos_iff.mpr hbig.1), error_bind] at hstep
    cases hstep
  · rintro ⟨h1, h2, h3, h4, h5⟩
    rcases h5 with rfl | h5
    · have hsz : p * 128 * r < 2 ^ T.bits := Nat.lt_of_le_of_lt h1 (isizeMax_lt T)
      rw [derive_steps T _ P S [] hr hn hp]
      have he := size_ok T p r hr (.inr hsz)
      simp only [← bind_assoc] at he ⊢
      rw [show (Scrypt.new r n p).p = p from rfl, show (Scrypt.new r n p).r = r from rfl, he, ok_bind,
        T.mul_ok (show 2 * Scrypt.BLOCK_SIZE * r < _ from chunk_lt T p r hp hsz), Nat.mod_eq_of_lt hsz]
      obtain ⟨g, hg, _, _⟩ := steps_lanes T (Scrypt.new r n p) P S [] (p * 128 * r) hr hn h1
        (.inr h2) (.inr h3) (.inr (by omega))
      exact ⟨([], .ok ()), by
        show steps T (Scrypt.new r n p) P S [] (p * 128 * r) (128 * (Scrypt.new r n p).r) = _
        rw [hg, pbkdf2_empty]; rfl⟩
    · exact ⟨_, C16_scrypt_correct T r n p P S out hr hn hp h1 h2 h3 h4 h5 hout⟩

/-- Both sides occur: a 32-bit target returns for small parameters and panics for a table of `2 ^ 28` vectors. -/
example : (∃ res, (Scrypt.new 1 128 1).derive ⟨.w32, true⟩ [] [] [0] = .ok res) ∧
    ¬ ∃ res, (Scrypt.new 1 (2 ^ 28) 1).derive ⟨.w32, true⟩ [] [] [0] = .ok res := by
  constructor
  · exact (C16_returns_iff _ rfl 1 128 1 [] [] [0] (by decide) ⟨7, rfl⟩ (by decide) (by decide)).mpr
      ⟨by decide, by decide, by decide, by decide, .inr (by decide)⟩
  · rw [C16_returns_iff _ rfl 1 (2 ^ 28) 1 [] [] [0] (by decide) ⟨28, rfl⟩ (by decide) (by decide)]
    exact fun h => absurd h.2.1 (by decide)

/-! ### C17 -/

/-- What the parameter checks decide, in the order of the checks. -/
theorem C17_validation (T : Target) (r n p : Nat) (P S out : List U8) :
    (r = 0 → (Scrypt.new r n p).derive T P S out = .ok (out, .error .RIsTooSmall)) ∧
    (r ≠ 0 → n = 0 → (Scrypt.new r n p).derive T P S out = .ok (out, .error .NIsTooSmall)) ∧
    (r ≠ 0 → n ≠ 0 → (¬ ∃ k, n = 2 ^ k) → (Scrypt.new r n p).derive T P S out = .ok (out, .error .NIsNotAPowerOfTwo)) ∧
    (r ≠ 0 → (∃ k, n = 2 ^ k) → p = 0 → (Scrypt.new r n p).derive T P S out = .ok (out, .error .PIsTooSmall)) := by
  refine ⟨?_, ?_, ?_, ?_⟩
  · intro h
    rw [Scrypt.derive, if_pos (show (Scrypt.new r n p).r < 1 from (by omega : r < 1))]
    rfl
  · intro hr hn
    rw [Scrypt.derive, if_neg (show ¬ (Scrypt.new r n p).r < 1 from (by omega : ¬ r < 1)), if_pos (show (Scrypt.new r n p).n < 1 from (by omega : n < 1))]
    rfl
  · intro hr hn hk
    rw [Scrypt.derive, if_neg (show ¬ (Scrypt.new r n p).r < 1 from (by omega : ¬ r < 1)), if_neg (show ¬ (Scrypt.new r n p).n < 1 from (by omega : ¬ n < 1)),
      T.sub_ok (show 1 ≤ (Scrypt.new r n p).n from (by omega : 1 ≤ n)), ok_bind, if_pos (show (((Scrypt.new r n p).n - 1) &&& (Scrypt.new r n p).n) ≠ 0 from fun h => hk ((n_pow n (by omega)).mp h))]
    rfl
  · intro hr hk hp
    have hn : 1 ≤ n := by obtain ⟨k, h⟩ := hk; rw [h]; exact Nat.two_pow_pos k
    rw [Scrypt.derive, if_neg (show ¬ (Scrypt.new r n p).r < 1 from (by omega : ¬ r < 1)), if_neg (show ¬ (Scrypt.new r n p).n < 1 from (by omega : ¬ n < 1)),
      T.sub_ok (show 1 ≤ (Scrypt.new r n p).n from (by omega : 1 ≤ n)), ok_bind,
      if_neg (show ¬ (((Scrypt.new r n p).n - 1) &&& (Scrypt.new r n p).n) ≠ 0 by rw [Decidable.not_not]; exact (n_pow n (by omega)).mpr hk),
      if_pos (show (Scrypt.new r n p).p < 1 from (by omega : p < 1))]
    rfl

/-- **C17.** If the parameters pass the four checks, `derive` returns no error (it returns `Ok` or panics). -/
theorem C17_valid_no_error (T : Target) (r n p : Nat) (P S out o : List U8) (res : Except ScryptError Unit)
    (hr : r ≠ 0) (hn : ∃ k, n = 2 ^ k) (hp : p ≠ 0) (h : (Scrypt.new r n p).derive T P S out = .ok (o, res)) :
    res = .ok () := by
  rw [derive_steps T _ P S out (show 1 ≤ r by omega) hn (show 1 ≤ p by omega)] at h
  have step : ∀ {α : Type} {x : M α} {f : α → M (List U8 × Except ScryptError Unit)} {y}, (x >>= f) = .ok y → ∃ a, f a = .ok y := by
    intro α x f y h
    cases x with
    | error e => cases h
    | ok a => exact ⟨a, h⟩
  obtain ⟨_, h⟩ := step h
  obtain ⟨_, h⟩ := step h
  obtain ⟨_, h⟩ := step h
  split at h
  · rw [steps] at h
    obtain ⟨_, h⟩ := step h
    obtain ⟨_, h⟩ := step h
    obtain ⟨_, h⟩ := step h
    obtain ⟨_, h⟩ := step h
    obtain ⟨_, h⟩ := step h
    obtain ⟨_, h⟩ := step h
    cases h
    rfl
  · obtain ⟨_, h⟩ := step h
    obtain ⟨_, h⟩ := step h
    cases h

/-- A derivation that does return. -/
example : ∃ res, (Scrypt.new 1 128 1).derive ⟨.w32, true⟩ [] [] [0] = .ok res ∧ res.2 = .ok () := by
  obtain ⟨res, h⟩ := (C16_returns_iff ⟨.w32, true⟩ rfl 1 128 1 [] [] [0] (by decide) ⟨7, rfl⟩ (by decide) (by decide)).mpr
    ⟨by decide, by decide, by decide, by decide, .inr (by decide)⟩
  exact ⟨res, h, C17_valid_no_error ⟨.w32, true⟩ 1 128 1 [] [] [0] res.1 res.2 (by decide) ⟨7, rfl⟩ (by decide) h⟩

/-- **C17.** Each error is returned exactly in its case, and then the output buffer is untouched. -/
theorem C17_errors_exact (T : Target) (r n p : Nat) (P S out o : List U8) (e : ScryptError) :
    (Scrypt.new r n p).derive T P S out = .ok (o, .error e) ↔
      o = out ∧
      ((r = 0 ∧ e = .RIsTooSmall) ∨
       (r ≠ 0 ∧ n = 0 ∧ e = .NIsTooSmall) ∨
       (r ≠ 0 ∧ n ≠ 0 ∧ (¬ ∃ k, n = 2 ^ k) ∧ e = .NIsNotAPowerOfTwo) ∨
       (r ≠ 0 ∧ (∃ k, n = 2 ^ k) ∧ p = 0 ∧ e = .PIsTooSmall)) := by
  obtain ⟨h1, h2, h3, h4⟩ := C17_validation T r n p P S out
  constructor
  · intro h
    by_cases hr : r = 0
    · rw [h1 hr] at h; cases h; exact ⟨rfl, .inl ⟨hr, rfl⟩⟩
    by_cases hn : n = 0
    · rw [h2 hr hn] at h; cases h; exact ⟨rfl, .inr (.inl ⟨hr, hn, rfl⟩)⟩
    by_cases hk : ∃ k, n = 2 ^ k
    · by_cases hp : p = 0
      · rw [h4 hr hk hp] at h; cases h; exact ⟨rfl, .inr (.inr (.inr ⟨hr, hk, hp, rfl⟩))⟩
      · cases C17_valid_no_error T r n p P S out o _ hr hk hp h
    · rw [h3 hr hn hk] at h; cases h; exact ⟨rfl, .inr (.inr (.inl ⟨hr, hn, hk, rfl⟩))⟩
  · rintro ⟨rfl, ⟨hr, rfl⟩ | ⟨hr, hn, rfl⟩ | ⟨hr, hn, hk, rfl⟩ | ⟨hr, hk, hp, rfl⟩⟩
    · exact h1 hr
    · exact h2 hr hn
    · exact h3 hr hn hk
    · exact h4 hr hk hp

/-- All four errors occur, whatever the passphrase, salt and buffer. -/
example (T : Target) (P S out : List U8) :
    (Scrypt.new 0 2 1).derive T P S out = .ok (out, .error .RIsTooSmall) ∧
    (Scrypt.new 1 0 1).derive T P S out = .ok (out, .error .NIsTooSmall) ∧
    (Scrypt.new 1 6 1).derive T P S out = .ok (out, .error .NIsNotAPowerOfTwo) ∧
    (Scrypt.new 1 8 0).derive T P S out = .ok (out, .error .PIsTooSmall) := by
  refine ⟨(C17_validation T 0 2 1 P S out).1 rfl, (C17_validation T 1 0 1 P S out).2.1 (by decide) rfl,
    (C17_validation T 1 6 1 P S out).2.2.1 (by decide) (by decide) ?_,
    (C17_validation T 1 8 0 P S out).2.2.2 (by decide) ⟨3, rfl⟩ rfl⟩
  rintro ⟨k, hk⟩
  have h3 : k < 3 := (Nat.pow_lt_pow_iff_right (a := 2) (by decide)).mp (by omega)
  have : ∀ k < 3, 6 ≠ 2 ^ k := by decide
  exact this k h3 hk

/-! ### C18: false of the code -/

/-- The ranges the documentation of `Scrypt::new` and RFC 7914 state: `N > 1`, `N < 2 ^ (128 * r / 8)`,
`p ≤ ((2 ^ 32 - 1) * 32) / (128 * r)`. -/
def Documented (r n p : Nat) : Prop := 1 < n ∧ n < 2 ^ (128 * r / 8) ∧ p ≤ (2 ^ 32 - 1) * 32 / (128 * r)

/-- **C18 is false.** `derive` does not reject everything outside the documented ranges. -/
theorem C18_violated : ¬ ∀ (T : Target) (r n p : Nat) (P S out o : List U8),
    (Scrypt.new r n p).derive T P S out = .ok (o, .ok ()) → Documented r n p := by
  intro h
  have := h ⟨.w64, true⟩ 1 1 1 [] [] [0] _ (C16_scrypt_correct ⟨.w64, true⟩ 1 1 1 [] [] [0] (by decide) ⟨0, rfl⟩ (by decide)
    (by decide) (by decide) (by decide) (by decide) (by decide) (by decide))
  exact absurd this.1 (by decide)

/-- **C18, the violation in general.** Each of the three documented bounds is ignored: `n = 1`, `n ≥ 2 ^ (16 * r)` and
`p > (2 ^ 32 - 1) * 32 / (128 * r)` are all accepted and produce a key, as long as the memory sizes fit the address space.
(The three cases are met below.) -/
theorem C18_outside_accepted (T : Target) (r k p : Nat) (P S out : List U8) (hr : 1 ≤ r) (hp : 1 ≤ p)
    (_h : ¬ Documented r (2 ^ k) p)
    (hmem : p * 128 * r ≤ T.isizeMax) (htab : 2 ^ k * T.vecSize ≤ T.isizeMax) (hP : 8 * P.length < 2 ^ T.bits)
    (hS : 8 * (64 + S.length + 4) < 2 ^ T.bits) (hB : 8 * (64 + p * 128 * r + 4) < 2 ^ T.bits)
    (hout : out.length ≤ T.isizeMax) :
    ∃ o, (Scrypt.new r (2 ^ k) p).derive T P S out = .ok (o, .ok ()) :=
  ⟨_, C16_scrypt_correct T r (2 ^ k) p P S out hr ⟨k, rfl⟩ hp hmem htab hP hS hB hout⟩

/-- `n = 1`. -/
example : ∃ o, (Scrypt.new 8 1 1).derive ⟨.w64, false⟩ [] [] [0] = .ok (o, .ok ()) :=
  C18_outside_accepted ⟨.w64, false⟩ 8 0 1 [] [] [0] (by decide) (by decide) (fun h => absurd h.1 (by decide))
    (by decide) (by decide) (by decide) (by decide) (by decide) (by decide)

/-- `r = 1`, `n = 2 ^ 16`. -/
example : ∃ o, (Scrypt.new 1 (2 ^ 16) 1).derive ⟨.w64, false⟩ [] [] [0] = .ok (o, .ok ()) :=
  C18_outside_accepted ⟨.w64, false⟩ 1 16 1 [] [] [0] (by decide) (by decide) (fun h => absurd h.2.1 (by decide))
    (by decide) (by decide) (by decide) (by decide) (by decide) (by decide)

/-- `r = 1`, `p = 2 ^ 30`. -/
example : ∃ o, (Scrypt.new 1 2 (2 ^ 30)).derive ⟨.w64, false⟩ [] [] [0] = .ok (o, .ok ()) :=
  C18_outside_accepted ⟨.w64, false⟩ 1 1 (2 ^ 30) [] [] [0] (by decide) (by decide) (fun h => absurd h.2.2 (by decide))
    (by decide) (by decide) (by decide) (by decide) (by decide) (by decide)

/-- **C18, the part that holds.** Whatever `derive` accepts has `r ≥ 1`, `n` a power of two and `p ≥ 1`. Missing from the
full statement `Documented r n p`: `n > 1` and both upper bounds, which the code does not check. -/
theorem C18_ranges_partial (T : Target) (r n p : Nat) (P S out o : List U8)
    (h : (Scrypt.new r n p).derive T P S out = .ok (o, .ok ())) : 1 ≤ r ∧ (∃ k, n = 2 ^ k) ∧ 1 ≤ p := by
  obtain ⟨h1, h2, h3, h4⟩ := C17_validation T r n p P S out
  by_cases hr : r = 0
  · rw [h1 hr] at h; cases h
  by_cases hn : n = 0
  · rw [h2 hr hn] at h; cases h
  by_cases hk : ∃ k, n = 2 ^ k
  · by_cases hp : p = 0
    · rw [h4 hr hk hp] at h; cases h
    · exact ⟨by omega, hk, by omega⟩
  · rw [h3 hr hn hk] at h; cases h

/-- A derivation that is accepted although the documentation excludes its parameters. -/
example : ∃ o, (Scrypt.new 8 1 1).derive ⟨.w64, false⟩ [] [] [0] = .ok (o, .ok ()) ∧ ∃ k, 1 = 2 ^ k := by
  obtain ⟨o, h⟩ := C18_outside_accepted ⟨.w64, false⟩ 8 0 1 [] [] [0] (by decide) (by decide) (fun h => absurd h.1 (by decide))
    (by decide) (by decide) (by decide) (by decide) (by decide) (by decide)
  exact ⟨o, h, (C18_ranges_partial ⟨.w64, false⟩ 8 1 1 [] [] [0] o h).2.1⟩

/-! ### C19 -/

/-- **C19.** For every sequence of `2 * r` blocks of 64 bytes, the value the code reads, truncated to `usize` and reduced
modulo a power of two `n` that fits a `usize`, is RFC 7914's `Integerify` modulo `n`. -/
theorem C19_integerify (T : Target) (r n : Nat) (hr : 1 ≤ r) (x : List (List U8)) (hx : x.length = 2 * r)
    (hb : ∀ b ∈ x, b.length = 64) (hn : ∃ k, n = 2 ^ k) (hlt : n < 2 ^ T.bits) :
    ∃ v, integerify T x = .ok v ∧
      v.toNat % 2 ^ T.bits % n = Spec.Scrypt.integerify r x.flatten % n := by
  obtain ⟨v, h1, h2⟩ := integerify_ok T r hr x ⟨hx, hb⟩
  refine ⟨v, h1, ?_⟩
  obtain ⟨k, rfl⟩ := hn
  have hk : k < T.bits := (Nat.pow_lt_pow_iff_right (by decide)).mp hlt
  rw [h2, littleEndian_mod _ _ _ (by omega) (by rcases T.bits_cases with h | h <;> omega)]
  rfl

/-- The largest table index width on a 32-bit target. -/
example (a b : U8) : ∃ v, integerify ⟨.w32, false⟩ [List.replicate 64 a, List.replicate 64 b] = .ok v ∧
    v.toNat % 2 ^ 32 % 2 ^ 31 =
      Spec.Scrypt.integerify 1 [List.replicate 64 a, List.replicate 64 b].flatten % 2 ^ 31 :=
  C19_integerify ⟨.w32, false⟩ 1 (2 ^ 31) (by decide) _ rfl
    (by intro x hx; simp only [List.mem_cons, List.not_mem_nil, or_false] at hx; rcases hx with rfl | rfl <;>
        exact List.length_replicate) ⟨31, rfl⟩ (by decide)

/-! ### C20 -/

/-- **C20.** BlockMix never panics on `2 * r` blocks of 64 bytes (a vector that exists satisfies `hcap`), returns `2 * r`
blocks of 64 bytes, and they are RFC 7914's `scryptBlockMix` of the input. -/
theorem C20_block_mix (T : Target) (r n p : Nat) (hr : 1 ≤ r) (b : List (List U8)) (hb : b.length = 2 * r)
    (h64 : ∀ x ∈ b, x.length = 64) (hcap : b.length * T.vecSize ≤ T.isizeMax) :
    ∃ b', (Scrypt.new r n p).block_mix T b = .ok b' ∧ b'.length = 2 * r ∧ (∀ x ∈ b', x.length = 64) ∧
      b'.flatten = Spec.Scrypt.blockMix r b.flatten := by
  obtain ⟨b', h1, h2, h3⟩ := block_mix_ok T (Scrypt.new r n p) b hr ⟨hb, h64⟩ (by rw [hb] at hcap; exact hcap)
  exact ⟨b', h1, h2.1, h2.2, h3⟩

/-- `r = 2`, on every target. -/
example (T : Target) (a b : U8) := C20_block_mix T 2 16 1 (by decide) [List.replicate 64 a, List.replicate 64 b, List.replicate 64 b, List.replicate 64 a] rfl
  (by intro x hx; simp only [List.mem_cons, List.not_mem_nil, or_false] at hx; rcases hx with rfl | rfl | rfl | rfl <;> exact List.length_replicate)
  (by rcases T with ⟨_ | _, _ | _⟩ <;> (show 4 * _ ≤ _; decide))

/-- **C20.** ROMix on such blocks, for every `n ≥ 1` (power of two or not): it panics exactly when a table of `n` vectors
exceeds the address space, and then with `capacity overflow`; otherwise it returns `2 * r` blocks of 64 bytes. -/
theorem C20_ro_mix (T : Target) (r n p : Nat) (hr : 1 ≤ r) (hn : 1 ≤ n) (b : List (List U8)) (hb : b.length = 2 * r)
    (h64 : ∀ x ∈ b, x.length = 64) (hcap : b.length * T.vecSize ≤ T.isizeMax) :
    (n * T.vecSize ≤ T.isizeMax → ∃ b', (Scrypt.new r n p).ro_mix T b = .ok b' ∧ b'.length = 2 * r ∧
      (∀ x ∈ b', x.length = 64) ∧ ((∃ k, n = 2 ^ k) → b'.flatten = Spec.Scrypt.roMix r n b.flatten)) ∧
    (T.isizeMax < n * T.vecSize → (Scrypt.new r n p).ro_mix T b = .error .capacity) := by
  constructor
  · intro htab
    obtain ⟨b', h1, h2, h3⟩ := ro_mix_ok T (Scrypt.new r n p) b hr hn ⟨hb, h64⟩ (by rw [hb] at hcap; exact hcap) htab
    refine ⟨b', h1, h2.1, h2.2, ?_⟩
    rintro ⟨k, hk⟩
    apply h3 k hk
    have h1 : n ≤ n * T.vecSize := Nat.le_mul_of_pos_right _ (vecSize_pos T)
    have h2 := isizeMax_lt T
    have : 2 ^ k < 2 ^ T.bits := by omega
    exact Nat.le_of_lt ((Nat.pow_lt_pow_iff_right (by decide)).mp this)
  · intro htab
    rw [Scrypt.ro_mix, Target.reserve, if_neg (show ¬ (Scrypt.new r n p).n * T.vecSize ≤ T.isizeMax from Nat.not_le_of_lt htab),
      error_bind]

/-- `r = 2`, `n = 3` (not a power of two), on every target. -/
example (T : Target) (a : U8) : ∃ b', (Scrypt.new 2 3 1).ro_mix T (List.replicate 4 (List.replicate 64 a)) = .ok b' ∧
    b'.length = 4 ∧ ∀ x ∈ b', x.length = 64 := by
  have hi : 2 ^ 31 - 1 ≤ T.isizeMax := by
    rw [Target.isizeMax]; rcases T.bits_cases with h | h <;> rw [h] <;> decide
  have hv := vecSize_le T
  obtain ⟨b', h1, h2, h3, _⟩ := (C20_ro_mix T 2 3 1 (by decide) (by decide) (List.replicate 4 (List.replicate 64 a))
    List.length_replicate (by intro x hx; rw [List.mem_replicate] at hx; rw [hx.2]; exact List.length_replicate)
    (by rw [List.length_replicate]; omega)).1 (by omega)
  exact ⟨b', h1, h2, h3⟩

/-! ### C21 -/

/-- **C21.** With overflow checks a size that does not fit a `usize` makes `derive` panic; no error value is returned. -/
theorem C21_overflow_panics (T : Target) (hc : T.checks = true) (r n p : Nat) (P S out : List U8) (hr : 1 ≤ r)
    (hn : ∃ k, n = 2 ^ k) (hp : 1 ≤ p) (hbig : 2 ^ T.bits ≤ p * 128 * r) :
    (Scrypt.new r n p).derive T P S out = .error .overflow := by
  rw [derive_steps T _ P S out hr hn hp]
  have he := size_err T p r hc hbig
  simp only [← bind_assoc] at he ⊢
  rw [show (Scrypt.new r n p).p = p from rfl, show (Scrypt.new r n p).r = r from rfl, he, error_bind]

/-- `p = 2 ^ 25` on 32-bit and `p = 2 ^ 57` on 64-bit debug builds, for every passphrase, salt and power of two `n`. -/
example (k : Nat) (P S out : List U8) :
    (Scrypt.new 1 (2 ^ k) (2 ^ 25)).derive ⟨.w32, true⟩ P S out = .error .overflow ∧
    (Scrypt.new 1 (2 ^ k) (2 ^ 57)).derive ⟨.w64, true⟩ P S out = .error .overflow :=
  ⟨C21_overflow_panics _ rfl _ _ _ P S out (by decide) ⟨k, rfl⟩ (by decide) (by decide),
   C21_overflow_panics _ rfl _ _ _ P S out (by decide) ⟨k, rfl⟩ (by decide) (by decide)⟩

/-- **C21.** Without overflow checks, when the size wraps to zero `derive` returns `Ok` with a key that is PBKDF2 of the
passphrase with the empty salt: neither the salt nor `n` has any influence. -/
theorem C21_wrap_to_zero (T : Target) (hc : T.checks = false) (r n p : Nat) (P S out : List U8) (hr : 1 ≤ r)
    (hn : ∃ k, n = 2 ^ k) (hp : 1 ≤ p) (hwrap : p * 128 * r % 2 ^ T.bits = 0) (hcs : 128 * r < 2 ^ T.bits)
    (hP : 8 * P.length < 2 ^ T.bits) (hout : out.length ≤ T.isizeMax) :
    (Scrypt.new r n p).derive T P S out = .ok (Spec.Pbkdf2.pbkdf2HmacSha256 P [] 1 out.length, .ok ()) := by
  have hq : p * 128 * r % 2 ^ T.bits / (128 * r) = 0 := by rw [hwrap, Nat.zero_div]
  rw [derive_eq T (Scrypt.new r n p) P S out hr hn hp (.inl hc) hcs
    (by show p * 128 * r % _ ≤ _; rw [hwrap]; omega) (.inl hq) (.inl hc) (.inl hc) (.inl hc) hout]
  show Except.ok (Spec.Scrypt.scryptWith (kdfOn T) P S n r (p * 128 * r % 2 ^ T.bits / (128 * r)) out.length, _) = _
  rw [hq, ← pbkdf2_prfOn_eq T P [] 1 out.length hP (by have := T.two_pow_ge; simp only [List.length_nil]; omega)]
  rfl

/-- `p = 2 ^ 25` on 32-bit and `p = 2 ^ 57` on 64-bit release builds, for every salt and every power of two `n`. -/
example (k : Nat) (S : List U8) :
    (Scrypt.new 1 (2 ^ k) (2 ^ 25)).derive ⟨.w32, false⟩ [1, 2, 3] S [0, 0, 0, 0] =
      .ok (Spec.Pbkdf2.pbkdf2HmacSha256 [1, 2, 3] [] 1 4, .ok ()) ∧
    (Scrypt.new 1 (2 ^ k) (2 ^ 57)).derive ⟨.w64, false⟩ [1, 2, 3] S [0, 0, 0, 0] =
      .ok (Spec.Pbkdf2.pbkdf2HmacSha256 [1, 2, 3] [] 1 4, .ok ()) :=
  ⟨C21_wrap_to_zero ⟨.w32, false⟩ rfl 1 (2 ^ k) (2 ^ 25) [1, 2, 3] S [0, 0, 0, 0] (by decide) ⟨k, rfl⟩ (by decide)
      (by decide) (by decide) (by decide) (by decide),
    C21_wrap_to_zero ⟨.w64, false⟩ rfl 1 (2 ^ k) (2 ^ 57) [1, 2, 3] S [0, 0, 0, 0] (by decide) ⟨k, rfl⟩ (by decide)
      (by decide) (by decide) (by decide) (by decide)⟩

/-- **C21.** Without overflow checks, a wrapped size makes `derive` compute the key for a smaller number of lanes. -/
theorem C21_wrap_fewer_lanes (T : Target) (hc : T.checks = false) (r n p p' : Nat) (P S out : List U8) (hr : 1 ≤ r)
    (hn : ∃ k, n = 2 ^ k) (hp : 1 ≤ p) (hp' : 1 ≤ p') (hq : p' = p * 128 * r % 2 ^ T.bits / (128 * r))
    (hsize : p * 128 * r % 2 ^ T.bits ≤ T.isizeMax) (htab : n * T.vecSize ≤ T.isizeMax) (hout : out.length ≤ T.isizeMax) :
    (Scrypt.new r n p).derive T P S out = (Scrypt.new r n p').derive T P S out := by
  have hle : p' * 128 * r ≤ p * 128 * r % 2 ^ T.bits := by rw [hq]; exact lanes_mul _ _
  have hi := isizeMax_lt T
  have hlt : p' * 128 * r < 2 ^ T.bits := by omega
  have hq' := lanes_eq T p' r hr hlt
  have hcs := chunk_lt T p' r hp' hlt
  rw [derive_eq T (Scrypt.new r n p) P S out hr hn hp (.inl hc) hcs hsize (.inr htab) (.inl hc) (.inl hc) (.inl hc) hout,
    derive_eq T (Scrypt.new r n p') P S out hr hn hp' (.inl hc) hcs
      (by show p' * 128 * r % _ ≤ _; rw [Nat.mod_eq_of_lt hlt]; omega) (.inr htab) (.inl hc) (.inl hc) (.inl hc) hout]
  show Except.ok (Spec.Scrypt.scryptWith (kdfOn T) P S n r (p * 128 * r % 2 ^ T.bits / (128 * r)) out.length, _) =
    Except.ok (Spec.Scrypt.scryptWith (kdfOn T) P S n r (p' * 128 * r % 2 ^ T.bits / (128 * r)) out.length, _)
  rw [← hq, hq']

/-- On a 64-bit release build `p = 2 ^ 57 + 3` gives the key of `p = 3`. -/
example (P S out : List U8) (h : out.length < 2 ^ 63) :
    (Scrypt.new 1 16 (2 ^ 57 + 3)).derive ⟨.w64, false⟩ P S out = (Scrypt.new 1 16 3).derive ⟨.w64, false⟩ P S out :=
  C21_wrap_fewer_lanes ⟨.w64, false⟩ rfl 1 16 (2 ^ 57 + 3) 3 P S out (by decide) ⟨4, rfl⟩ (by decide) (by decide)
    (by decide) (by decide) (by decide) (by show out.length ≤ 2 ^ 63 - 1; omega)

end Verif.Props.Scrypt
