import Verif.Proof.Pbkdf2

/-! Properties C08-C11: PBKDF2-HMAC-SHA256. -/

namespace Verif.Props.Pbkdf2
open Verif Verif.Sha256 Verif.Hmac Verif.Pbkdf2

/-- **C08.** `pbkdf2_sha256` fills the buffer with the derived key of RFC 2898 and does not panic. The two length conditions
say that the bit lengths of everything that is hashed fit a `usize`; the bound by `isize::MAX` holds of every Rust slice. -/
theorem C08_pbkdf2_correct (T : Target) (P S : List U8) (c : Nat) (out : List U8) (_hc : 1 ≤ c)
    (hP : 8 * P.length < 2 ^ T.bits) (hS : 8 * (64 + S.length + 4) < 2 ^ T.bits)
    (hout : out.length ≤ T.isizeMax) (_hlen : out.length ≤ (2 ^ 32 - 1) * 32) :
    pbkdf2_sha256 T P S c out = .ok (Spec.Pbkdf2.pbkdf2HmacSha256 P S c out.length) := by
  have hS' : 8 * (68 + S.length) < 2 ^ T.bits := by omega
  rw [pbkdf2_eq T P S c out (.inr hP) (.inr hS') hout, pbkdf2_prfOn_eq T P S c _ hP hS']

/-- The hypotheses hold on every target for a 40-byte output (two blocks, the second one cut). -/
example (T : Target) : pbkdf2_sha256 T [1, 2] [3] 5 (List.replicate 40 0) =
    .ok (Spec.Pbkdf2.pbkdf2HmacSha256 [1, 2] [3] 5 40) := by
  have h := T.two_pow_ge
  have := C08_pbkdf2_correct T [1, 2] [3] 5 (List.replicate 40 0) (by decide)
    (by simp only [List.length_cons, List.length_nil]; omega) (by simp only [List.length_cons, List.length_nil]; omega)
    (by rw [List.length_replicate, Target.isizeMax]; rcases T.bits_cases with h | h <;> rw [h] <;> decide)
    (by rw [List.length_replicate]; decide)
  rwa [List.length_replicate] at this

/-- **C08.** Without overflow checks no input makes it panic; beyond the `usize` limit the hash below uses the wrapped
length field. -/
theorem C08_pbkdf2_unchecked (T : Target) (hc : T.checks = false) (P S : List U8) (c : Nat) (out : List U8)
    (hout : out.length ≤ T.isizeMax) :
    pbkdf2_sha256 T P S c out =
      .ok (Spec.Pbkdf2.pbkdf2 (Spec.hmac fun m => Spec.Sha256.sha256WithLength (8 * m.length % 2 ^ T.bits) m)
        P S c out.length) :=
  pbkdf2_eq T P S c out (.inl hc) (.inl hc) hout

/-- **C08.** With overflow checks it panics exactly when the output is non-empty and one of the bit lengths does not fit. -/
theorem C08_pbkdf2_panics_iff (T : Target) (hc : T.checks = true) (P S : List U8) (c : Nat) (out : List U8)
    (hout : out.length ≤ T.isizeMax) :
    (∃ p, pbkdf2_sha256 T P S c out = .error p) ↔
      out ≠ [] ∧ (2 ^ T.bits ≤ 8 * P.length ∨ 2 ^ T.bits ≤ 8 * (64 + S.length + 4)) := by
  constructor
  · rintro ⟨p, hp⟩
    constructor
    · rintro rfl
      rw [pbkdf2_empty] at hp
      cases hp
    · by_cases h1 : 2 ^ T.bits ≤ 8 * P.length
      · exact .inl h1
      · by_cases h2 : 2 ^ T.bits ≤ 8 * (64 + S.length + 4)
        · exact .inr h2
        · rw [pbkdf2_eq T P S c out (.inr (by omega)) (.inr (by omega)) hout] at hp
          cases hp
  · rintro ⟨h1, h2⟩
    exact ⟨.overflow, pbkdf2_err T P S c out hc (h2.imp id (fun h => by omega)) (List.length_pos_iff.mpr h1)⟩

example (n : Nat) (hn : 2 ^ 29 ≤ n) : ∃ p, pbkdf2_sha256 ⟨.w32, true⟩ [] (List.replicate n 0) 1 [0] = .error p :=
  (C08_pbkdf2_panics_iff ⟨.w32, true⟩ rfl _ _ _ _ (by decide)).mpr
    ⟨by simp, .inr (by rw [List.length_replicate]; show 2 ^ 32 ≤ _; omega)⟩

/-- **C09.** The outcome does not depend on the contents of the buffer before the call. -/
theorem C09_buffer_contents_irrelevant (T : Target) (P S : List U8) (c : Nat) (out out' : List U8)
    (hout : out.length ≤ T.isizeMax) (h : out.length = out'.length) :
    pbkdf2_sha256 T P S c out = pbkdf2_sha256 T P S c out' := by
  by_cases hf : T.checks = false ∨ (8 * P.length < 2 ^ T.bits ∧ 8 * (68 + S.length) < 2 ^ T.bits)
  · rw [pbkdf2_eq T P S c out (hf.imp id And.left) (hf.imp id And.right) hout,
      pbkdf2_eq T P S c out' (hf.imp id And.left) (hf.imp id And.right) (h ▸ hout), h]
  · simp only [not_or, not_and, Bool.not_eq_false] at hf
    by_cases h0 : 0 < out.length
    · have hbig : 2 ^ T.bits ≤ 8 * P.length ∨ 2 ^ T.bits ≤ 8 * (68 + S.length) := by
        by_cases h1 : 8 * P.length < 2 ^ T.bits
        · exact .inr (Nat.le_of_not_lt (hf.2 h1))
        · exact .inl (by omega)
      rw [pbkdf2_err T P S c out hf.1 hbig h0, pbkdf2_err T P S c out' hf.1 hbig (h ▸ h0)]
    · have e1 : out = [] := List.length_eq_zero_iff.mp (by omega)
      have e2 : out' = [] := List.length_eq_zero_iff.mp (by omega)
      rw [e1, e2]

/-- Two buffers of 40 bytes with different contents. -/
example (T : Target) (P S : List U8) := C09_buffer_contents_irrelevant T P S 1000 (List.replicate 40 0) (List.replicate 40 255)
  (by rcases T with ⟨_ | _, _ | _⟩ <;> decide) (by simp only [List.length_replicate])

/-- **C09.** The buffer keeps its length, and a shorter buffer receives a prefix of what a longer one receives. -/
theorem C09_prefix (T : Target) (P S : List U8) (c : Nat) (out out' o o' : List U8)
    (hout : out'.length ≤ T.isizeMax) (hle : out.length ≤ out'.length)
    (h : pbkdf2_sha256 T P S c out = .ok o) (h' : pbkdf2_sha256 T P S c out' = .ok o') :
    o.length = out.length ∧ o'.length = out'.length ∧ o = o'.take out.length := by
  by_cases hf : T.checks = false ∨ (8 * P.length < 2 ^ T.bits ∧ 8 * (68 + S.length) < 2 ^ T.bits)
  · rw [pbkdf2_eq T P S c out (hf.imp id And.left) (hf.imp id And.right) (by omega), Except.ok.injEq] at h
    rw [pbkdf2_eq T P S c out' (hf.imp id And.left) (hf.imp id And.right) hout, Except.ok.injEq] at h'
    rw [← h, ← h']
    exact ⟨pbkdf2_length .., pbkdf2_length .., pbkdf2_prefix _ _ _ _ _ _ hle⟩
  · simp only [not_or, not_and, Bool.not_eq_false] at hf
    have hbig : 2 ^ T.bits ≤ 8 * P.length ∨ 2 ^ T.bits ≤ 8 * (68 + S.length) := by
      by_cases h1 : 8 * P.length < 2 ^ T.bits
      · exact .inr (Nat.le_of_not_lt (hf.2 h1))
      · exact .inl (by omega)
    by_cases h0 : 0 < out'.length
    · rw [pbkdf2_err T P S c out' hf.1 hbig h0] at h'
      cases h'
    · have e1 : out = [] := List.length_eq_zero_iff.mp (by omega)
      have e2 : out' = [] := List.length_eq_zero_iff.mp (by omega)
      subst e1 e2
      rw [pbkdf2_empty, Except.ok.injEq] at h h'
      subst h h'
      simp

/-- The hypotheses of `C09_prefix` are met on every target without overflow checks. -/
example (w : Width) (P S : List U8) (c : Nat) : ∃ o o', pbkdf2_sha256 ⟨w, false⟩ P S c [7, 7, 7] = .ok o ∧
    pbkdf2_sha256 ⟨w, false⟩ P S c [0, 0, 0, 0, 0] = .ok o' ∧ o = o'.take 3 :=
  have hb : ∀ n, n ≤ 5 → n ≤ (⟨w, false⟩ : Target).isizeMax := by
    intro n hn; cases w <;> exact Nat.le_trans hn (by decide)
  ⟨_, _, C08_pbkdf2_unchecked ⟨w, false⟩ rfl P S c _ (hb _ (by decide)),
    C08_pbkdf2_unchecked ⟨w, false⟩ rfl P S c _ (hb _ (by decide)),
    (C09_prefix ⟨w, false⟩ P S c [7, 7, 7] [0, 0, 0, 0, 0] _ _ (hb _ (by decide)) (by decide)
      (C08_pbkdf2_unchecked ⟨w, false⟩ rfl P S c _ (hb _ (by decide)))
      (C08_pbkdf2_unchecked ⟨w, false⟩ rfl P S c _ (hb _ (by decide)))).2.2⟩

/-- **C10.** Zero iterations are accepted and act like one iteration. -/
theorem C10_zero_iterations (T : Target) (P S out : List U8) :
    pbkdf2_sha256 T P S 0 out = pbkdf2_sha256 T P S 1 out := by
  have : ∀ i, derive_block T P S 0 i = derive_block T P S 1 i := by
    intro i
    unfold derive_block
    simp only [forRangeIncl, forRange_self 2 (0 + 1) (by decide), forRange_self 2 (1 + 1) (by decide)]
  unfold pbkdf2_sha256
  simp only [this]

/-- **C11.** An output longer than RFC 2898 allows is not rejected (on a 64-bit target), and its bytes repeat with period
`32 * 2 ^ 32`: the block index wraps. -/
theorem C11_too_long_key_repeats (T : Target) (P S : List U8) (c : Nat) (out : List U8)
    (hP : 8 * P.length < 2 ^ T.bits) (hS : 8 * (64 + S.length + 4) < 2 ^ T.bits) (hout : out.length ≤ T.isizeMax) :
    ∃ o, pbkdf2_sha256 T P S c out = .ok o ∧ o.length = out.length ∧
      ∀ k, k + 32 * 2 ^ 32 < out.length → o[k + 32 * 2 ^ 32]? = o[k]? := by
  refine ⟨_, pbkdf2_eq T P S c out (.inr hP) (.inr (by omega)) hout, pbkdf2_length .., ?_⟩
  intro k hk
  have e1 : k = 32 * (k / 32) + k % 32 := by omega
  have e2 : k + 32 * 2 ^ 32 = 32 * (k / 32 + 2 ^ 32) + k % 32 := by omega
  rw [e2, pbkdf2_get _ _ _ _ _ _ _ (by omega) (by omega)]
  conv => rhs; rw [e1]
  rw [pbkdf2_get _ _ _ _ _ _ _ (by omega) (by omega), show k / 32 + 2 ^ 32 + 1 = k / 32 + 1 + 2 ^ 32 by omega, F_wrap]

/-- Such outputs exist on a 64-bit target: the first byte returns at position `32 * 2 ^ 32` of any longer buffer. -/
example (c n : Nat) (h1 : 32 * 2 ^ 32 < n) (h2 : n < 2 ^ 63) :
    ∃ o, pbkdf2_sha256 ⟨.w64, true⟩ [1] [2] c (List.replicate n 0) = .ok o ∧ o[32 * 2 ^ 32]? = o[0]? := by
  obtain ⟨o, e, _, h⟩ := C11_too_long_key_repeats ⟨.w64, true⟩ [1] [2] c (List.replicate n 0) (by decide) (by decide)
    (by rw [List.length_replicate]; show n ≤ 2 ^ 63 - 1; omega)
  refine ⟨o, e, ?_⟩
  have := h 0 (by rw [List.length_replicate]; omega)
  rwa [Nat.zero_add] at this

end Verif.Props.Pbkdf2
