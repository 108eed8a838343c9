import Verif.Props.Pbkdf2
import Verif.Props.Scrypt

/-! Property C47: the output buffer of scrypt. -/

namespace Verif.Props.ScryptShape
open Verif Verif.Sha256 Verif.Pbkdf2 Verif.Scrypt
open Verif.Props.Pbkdf2 (C09_buffer_contents_irrelevant C09_prefix)
open Verif.Props.Scrypt (C17_validation C18_ranges_partial)

/-- Everything `derive` does before it touches the output buffer. -/
theorem derive_factors (T : Target) (r n p : Nat) (P S : List U8) (hr : 1 ≤ r) (hn : ∃ k, n = 2 ^ k) (hp : 1 ≤ p) :
    ∃ g : M (List U8), ∀ out, (Scrypt.new r n p).derive T P S out = (do
      let salt ← g
      let out ← pbkdf2_sha256 T P salt 1 out
      return (out, .ok ())) := by
  refine ⟨(do
    let size ← T.mul (← T.mul (← T.mul p 2) Scrypt.BLOCK_SIZE) r
    T.reserve 1 size
    let raw_b ← pbkdf2_sha256 T P S PBKDF2_ROUNDS (List.replicate size (0 : U8))
    let b ← (← chunksExact raw_b (← T.mul (2 * Scrypt.BLOCK_SIZE) r)).mapM (fun chunk => chunksExact chunk Scrypt.BLOCK_SIZE)
    let b ← b.mapM (fun elem => (Scrypt.new r n p).ro_mix T elem)
    return b.flatten.flatten), ?_⟩
  intro out
  have hn1 : 1 ≤ n := by obtain ⟨k, h⟩ := hn; rw [h]; exact Nat.two_pow_pos k
  rw [Scrypt.derive, if_neg (show ¬ (Scrypt.new r n p).r < 1 from Nat.not_lt.mpr hr),
    if_neg (show ¬ (Scrypt.new r n p).n < 1 from Nat.not_lt.mpr hn1), T.sub_ok (show 1 ≤ (Scrypt.new r n p).n from hn1), ok_bind,
    if_neg (by rw [Decidable.not_not]; exact (n_pow _ hn1).mpr hn),
    if_neg (show ¬ (Scrypt.new r n p).p < 1 from Nat.not_lt.mpr hp)]
  simp only [bind_assoc, pure_bind]
  rfl

/-- **C47.** For accepted parameters the outcome of `derive` (including a panic) does not depend on the contents of the output
buffer before the call. -/
theorem C47_buffer_contents_irrelevant (T : Target) (r n p : Nat) (P S out out' : List U8) (hr : 1 ≤ r)
    (hn : ∃ k, n = 2 ^ k) (hp : 1 ≤ p) (hout : out.length ≤ T.isizeMax) (h : out.length = out'.length) :
    (Scrypt.new r n p).derive T P S out = (Scrypt.new r n p).derive T P S out' := by
  obtain ⟨g, hg⟩ := derive_factors T r n p P S hr hn hp
  rw [hg, hg]
  simp only [C09_buffer_contents_irrelevant T P _ 1 out out' hout h]

example (T : Target) (P S : List U8) :
    (Scrypt.new 8 16 1).derive T P S [1, 2, 3] = (Scrypt.new 8 16 1).derive T P S [4, 5, 6] :=
  C47_buffer_contents_irrelevant T 8 16 1 P S _ _ (by decide) ⟨4, rfl⟩ (by decide)
    (Nat.le_trans (show 3 ≤ 2 ^ 31 - 1 by decide)
      (by rw [Target.isizeMax]; rcases T.bits_cases with h | h <;> rw [h] <;> decide)) rfl

/-- **C47.** When `derive` succeeds the buffer keeps its length, and a shorter buffer receives a prefix of what a longer one
receives. -/
theorem C47_prefix (T : Target) (r n p : Nat) (P S out out' o o' : List U8) (hout : out'.length ≤ T.isizeMax)
    (hle : out.length ≤ out'.length) (h : (Scrypt.new r n p).derive T P S out = .ok (o, .ok ()))
    (h' : (Scrypt.new r n p).derive T P S out' = .ok (o', .ok ())) :
    o.length = out.length ∧ o'.length = out'.length ∧ o = o'.take out.length := by
  obtain ⟨hr, hn, hp⟩ := C18_ranges_partial T r n p P S out o h
  obtain ⟨g, hg⟩ := derive_factors T r n p P S hr hn hp
  rw [hg] at h h'
  cases hgv : g with
  | error e => rw [hgv] at h; cases h
  | ok salt =>
    rw [hgv, ok_bind] at h h'
    have key : ∀ x y : List U8, (do let out ← pbkdf2_sha256 T P salt 1 x; return (out, .ok ()) :
        M (List U8 × Except ScryptError Unit)) = .ok (y, .ok ()) → pbkdf2_sha256 T P salt 1 x = .ok y := by
      intro x y e
      cases hx : pbkdf2_sha256 T P salt 1 x with
      | error _ => rw [hx] at e; cases e
      | ok z =>
        rw [hx] at e
        simp only [ok_bind, pure_eq_ok, Except.ok.injEq, Prod.mk.injEq, and_true] at e
        rw [e]
    exact C09_prefix T P salt 1 out out' o o' hout hle (key _ _ h) (key _ _ h')

/-- The hypotheses of `C47_prefix` are met: two buffers on a 64-bit target. -/
example (c : Bool) : ∃ o o', (Scrypt.new 8 16 1).derive ⟨.w64, c⟩ [1] [2] [0, 0, 0] = .ok (o, .ok ()) ∧
    (Scrypt.new 8 16 1).derive ⟨.w64, c⟩ [1] [2] [9, 9, 9, 9, 9] = .ok (o', .ok ()) ∧ o = o'.take 3 := by
  have h := fun out (hout : out.length ≤ (⟨.w64, c⟩ : Target).isizeMax) =>
    Verif.Props.Scrypt.C16_scrypt_correct ⟨.w64, c⟩ 8 16 1 [1] [2] out (by decide) ⟨4, rfl⟩ (by decide)
      (by show _ ≤ 2 ^ 63 - 1; decide) (by cases c <;> decide) (by show _ < 2 ^ 64; decide)
      (by show _ < 2 ^ 64; decide) (by show _ < 2 ^ 64; decide) hout
  have h1 := h [0, 0, 0] (by show 3 ≤ 2 ^ 63 - 1; decide)
  have h2 := h [9, 9, 9, 9, 9] (by show 5 ≤ 2 ^ 63 - 1; decide)
  exact ⟨_, _, h1, h2, (C47_prefix _ _ _ _ _ _ _ _ _ _ (by show 5 ≤ 2 ^ 63 - 1; decide) (by decide) h1 h2).2.2⟩

/-- **C47.** After a success an empty output buffer is still empty. -/
theorem C47_empty (T : Target) (r n p : Nat) (P S o : List U8) (h : (Scrypt.new r n p).derive T P S [] = .ok (o, .ok ())) :
    o = [] :=
  List.length_eq_zero_iff.mp (C47_prefix T r n p P S [] [] o o (Nat.zero_le _) (Nat.le_refl _) h h).1

/-- The hypothesis of `C47_empty` is met. -/
example (c : Bool) : ∃ o, (Scrypt.new 8 16 1).derive ⟨.w64, c⟩ [1] [2] [] = .ok (o, .ok ()) ∧ o = [] := by
  have h := Verif.Props.Scrypt.C16_scrypt_correct ⟨.w64, c⟩ 8 16 1 [1] [2] [] (by decide) ⟨4, rfl⟩ (by decide)
      (by show _ ≤ 2 ^ 63 - 1; decide) (by cases c <;> decide) (by show _ < 2 ^ 64; decide)
      (by show _ < 2 ^ 64; decide) (by show _ < 2 ^ 64; decide) (Nat.zero_le _)
  exact ⟨_, h, C47_empty _ _ _ _ _ _ _ h⟩

end Verif.Props.ScryptShape
