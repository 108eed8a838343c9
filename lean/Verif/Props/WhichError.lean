import Verif.Model.Derived
import Verif.Props.CbcHistory

/-! Property C129: which error a call can give, and how it is told from the others. -/

namespace Verif.Props.WhichError
open Verif Verif.Aes Verif.AesCbc Spec.Cbc Verif.Props.CbcHistory

/-- Among the calls there is an `init` with a key of 16, 24 or 32 bytes. -/
def Ready (calls : List Call) : Prop :=
  ∃ key, Call.init key ∈ calls ∧ (key.length = 16 ∨ key.length = 24 ∨ key.length = 32)

/-- The answers that a call on a `Cipher` may get, with the text that `{:?}` writes for the error. -/
def CipherMay (before : List Call) : Call → Except String (List U8) → Prop
  | .init key, r => ((key.length = 16 ∨ key.length = 24 ∨ key.length = 32) → r = .ok []) ∧
      (¬ (key.length = 16 ∨ key.length = 24 ∨ key.length = 32) → r = .error "InvalidKeySize")
  | .write b, r => (Ready before → ∃ out, r = .ok out) ∧
      (¬ Ready before → r = .ok [] ∧ b.length < 16 ∨ r = .error "NotInitialized")
  | .flush, r => (Ready before → ∃ out, r = .ok out) ∧ (¬ Ready before → r = .error "NotInitialized")

/-- The answers that a call on a `Decipher` may get, with the text that `{:?}` writes for the error. -/
def DecipherMay (before : List Call) : Call → Except String (List U8) → Prop
  | .init key, r => ((key.length = 16 ∨ key.length = 24 ∨ key.length = 32) → r = .ok []) ∧
      (¬ (key.length = 16 ∨ key.length = 24 ∨ key.length = 32) → r = .error "AES(InvalidKeySize)")
  | .write b, r => (Ready before → ∃ out, r = .ok out) ∧
      (¬ Ready before → r = .ok [] ∧ b.length < 16 ∨ r = .error "AES(NotInitialized)")
  | .flush, r => (Ready before → (∃ out, r = .ok out) ∨ r = .error "PKCS7(UnfinishedBlock)" ∨ r = .error "PKCS7(InvalidPadding)") ∧
      (¬ Ready before → r = .error "PKCS7(UnfinishedBlock)")

theorem enc_ready (calls : List Call) (e : Enc) : (e.run calls).1.key ≠ none ↔ e.key ≠ none ∨ Ready calls := by
  induction calls generalizing e with
  | nil => simp [Enc.run, Ready]
  | cons x xs ih =>
    have h : ((e.step x).1.run xs).1.key ≠ none ↔ _ := ih _
    show ((e.step x).1.run xs).1.key ≠ none ↔ _
    rw [h]
    have hr : Ready (x :: xs) ↔ (∃ key, x = .init key ∧ validKey key) ∨ Ready xs := by
      constructor
      · rintro ⟨key, hm, hk⟩
        rcases List.mem_cons.1 hm with hm | hm
        · exact .inl ⟨key, hm.symm, hk⟩
        · exact .inr ⟨key, hm, hk⟩
      · rintro (⟨key, hm, hk⟩ | ⟨key, hm, hk⟩)
        · exact ⟨key, by simp [hm], hk⟩
        · exact ⟨key, by simp [hm], hk⟩
    rw [hr, ← or_assoc]
    apply or_congr_left
    cases x with
    | init key =>
      rw [Enc.step]
      by_cases hk : validKey key
      · rw [if_pos hk]; simp [hk]
      · rw [if_neg hk]; simp [hk]
    | write b =>
      rw [Enc.step]
      cases hk : e.key <;> (split <;> simp)
    | flush =>
      rw [Enc.step]
      cases hk : e.key <;> simp

theorem dec_ready (calls : List Call) (e : Dec) : (e.run calls).1.key ≠ none ↔ e.key ≠ none ∨ Ready calls := by
  induction calls generalizing e with
  | nil => simp [Dec.run, Ready]
  | cons x xs ih =>
    have h : ((e.step x).1.run xs).1.key ≠ none ↔ _ := ih _
    show ((e.step x).1.run xs).1.key ≠ none ↔ _
    rw [h]
    have hr : Ready (x :: xs) ↔ (∃ key, x = .init key ∧ validKey key) ∨ Ready xs := by
      constructor
      · rintro ⟨key, hm, hk⟩
        rcases List.mem_cons.1 hm with hm | hm
        · exact .inl ⟨key, hm.symm, hk⟩
        · exact .inr ⟨key, hm, hk⟩
      · rintro (⟨key, hm, hk⟩ | ⟨key, hm, hk⟩)
        · exact ⟨key, by simp [hm], hk⟩
        · exact ⟨key, by simp [hm], hk⟩
    rw [hr, ← or_assoc]
    apply or_congr_left
    cases x with
    | init key =>
      rw [Dec.step]
      by_cases hk : validKey key
      · rw [if_pos hk]; simp [hk]
      · rw [if_neg hk]; simp [hk]
    | write b =>
      rw [Dec.step]
      cases hk : e.key <;> (split <;> simp)
    | flush =>
      rw [Dec.step]
      cases hh : e.held.getLast? with
      | none => simp
      | some v => simp only []; split <;> simp

/-- **C129.** After any history of calls on a `Cipher`: `init` fails exactly for the wrong key lengths; once a key has been accepted `write` and
`flush` never fail; before that they give no byte, and the error is `NotInitialized`. -/
theorem C129_cipher (T : Target) (iv : Vector U8 16) (before : List Call) (call : Call) :
    ∃ c rs c' r, crun T (Cipher.new iv) before = .ok (c, rs) ∧ cstep T c call = .ok (c', r) ∧
      CipherMay before call (r.mapError AESError.debug) := by
  obtain ⟨c, rs, h1, h2, -⟩ := crun_spec T before (Cipher.new iv) ⟨none, iv.toList, []⟩ ⟨rfl, rfl, rfl, by simp⟩
  have hr := enc_ready before ⟨none, iv.toList, []⟩
  generalize (Enc.run ⟨none, iv.toList, []⟩ before).1 = e at h2 hr
  simp only [ne_eq, not_true, false_or] at hr
  obtain ⟨c', r, h3, -, h4⟩ := cstep_spec T c e h2 call
  refine ⟨c, rs, c', r, h1, h3, ?_⟩
  cases call with
  | init key =>
    rw [Enc.step] at h4
    refine ⟨fun hk => ?_, fun hk => ?_⟩
    · rw [if_pos (by exact hk)] at h4
      rw [errA_ok r _ h4]; rfl
    · rw [if_neg (by exact hk)] at h4
      rw [errA_error r .InvalidKeySize h4]; rfl
  | write b =>
    rw [Enc.step] at h4
    constructor
    · intro h
      obtain ⟨key, hk⟩ := Option.ne_none_iff_exists'.1 (hr.2 h)
      rw [hk] at h4
      split at h4
      · exact ⟨_, by rw [errA_ok r _ h4]; rfl⟩
      · exact ⟨_, by rw [errA_ok r _ h4]; rfl⟩
    · intro h
      have hk : e.key = none := Classical.byContradiction fun hk => h (hr.1 hk)
      rw [hk] at h4
      split at h4
      · rename_i hl
        rw [List.length_append] at hl
        exact .inl ⟨by rw [errA_ok r _ h4]; rfl, by omega⟩
      · exact .inr (by rw [errA_error r .NotInitialized h4]; rfl)
  | flush =>
    rw [Enc.step] at h4
    constructor
    · intro h
      obtain ⟨key, hk⟩ := Option.ne_none_iff_exists'.1 (hr.2 h)
      rw [hk] at h4
      exact ⟨_, by rw [errA_ok r _ h4]; rfl⟩
    · intro h
      have hk : e.key = none := Classical.byContradiction fun hk => h (hr.1 hk)
      rw [hk] at h4
      rw [errA_error r .NotInitialized h4]; rfl

/-- **C129.** After any history of calls on a `Decipher`: `init` fails exactly for the wrong key lengths; once a key has been accepted `write`
never fails, and `flush` fails only with an error of the padding; before that they give no byte. -/
theorem C129_decipher (T : Target) (iv : Vector U8 16) (before : List Call) (call : Call) :
    ∃ d rs d' r, drun T (Decipher.new iv) before = .ok (d, rs) ∧ dstep T d call = .ok (d', r) ∧
      DecipherMay before call (r.mapError DecipherError.debug) := by
  obtain ⟨d, rs, h1, h2, -⟩ := drun_spec T before (Decipher.new iv) ⟨none, iv.toList, [], []⟩
    ⟨rfl, rfl, rfl, by simp, rfl, Or.inl rfl⟩
  have hr := dec_ready before ⟨none, iv.toList, [], []⟩
  have hheld : ¬ Ready before → (Dec.run ⟨none, iv.toList, [], []⟩ before).1.held = [] := fun h =>
    (dec_run_none before ⟨none, iv.toList, [], []⟩ rfl rfl fun key hm hk => h ⟨key, hm, hk⟩).2.1
  generalize (Dec.run ⟨none, iv.toList, [], []⟩ before).1 = e at h2 hr hheld
  simp only [ne_eq, not_true, false_or] at hr
  obtain ⟨d', r, h3, -, h4⟩ := dstep_spec T d e h2 call
  refine ⟨d, rs, d', r, h1, h3, ?_⟩
  cases call with
  | init key =>
    rw [Dec.step] at h4
    refine ⟨fun hk => ?_, fun hk => ?_⟩
    · rw [if_pos (by exact hk)] at h4
      rw [errD_ok r _ h4]; rfl
    · rw [if_neg (by exact hk)] at h4
      rw [errD_error r (.AES .InvalidKeySize) h4]; rfl
  | write b =>
    rw [Dec.step] at h4
    constructor
    · intro h
      obtain ⟨key, hk⟩ := Option.ne_none_iff_exists'.1 (hr.2 h)
      rw [hk] at h4
      split at h4
      · exact ⟨_, by rw [errD_ok r _ h4]; rfl⟩
      · exact ⟨_, by rw [errD_ok r _ h4]; rfl⟩
    · intro h
      have hk : e.key = none := Classical.byContradiction fun hk => h (hr.1 hk)
      rw [hk] at h4
      split at h4
      · rename_i hl
        rw [List.length_append] at hl
        exact .inl ⟨by rw [errD_ok r _ h4]; rfl, by omega⟩
      · exact .inr (by rw [errD_error r (.AES .NotInitialized) h4]; rfl)
  | flush =>
    rw [Dec.step] at h4
    constructor
    · intro _
      cases hl : e.held.getLast? with
      | none =>
        rw [hl] at h4
        exact .inr (.inl (by rw [errD_error r (.PKCS7 .UnfinishedBlock) h4]; rfl))
      | some v =>
        rw [hl] at h4
        simp only [] at h4
        split at h4
        · exact .inl ⟨_, by rw [errD_ok r _ h4]; rfl⟩
        · exact .inr (.inr (by rw [errD_error r (.PKCS7 .InvalidPadding) h4]; rfl))
    · intro h
      rw [hheld h] at h4
      rw [errD_error r (.PKCS7 .UnfinishedBlock) h4]; rfl

/-- A `write` after a failed one, a rejected key and an accepted one, on both objects, does not fail. -/
example (T : Target) (iv : Vector U8 16) (b : List U8) :
    (∃ c rs c' out, crun T (Cipher.new iv) [.write (List.replicate 16 0), .init [1], .init (List.replicate 24 2)] = .ok (c, rs) ∧
      c.write T b = .ok (c', .ok out)) ∧
    ∃ d rs d' out, drun T (Decipher.new iv) [.write (List.replicate 16 0), .init [1], .init (List.replicate 24 2)] = .ok (d, rs) ∧
      d.write T b = .ok (d', .ok out) := by
  have hr : Ready [.write (List.replicate 16 0), .init [1], .init (List.replicate 24 2)] := ⟨List.replicate 24 2, by simp, by simp⟩
  constructor
  · obtain ⟨c, rs, c', r, h1, h2, h3, -⟩ := C129_cipher T iv [.write (List.replicate 16 0), .init [1], .init (List.replicate 24 2)] (.write b)
    obtain ⟨out, h⟩ := h3 hr
    cases r with
    | ok a => exact ⟨c, rs, c', a, h1, h2⟩
    | error e => cases h
  · obtain ⟨d, rs, d', r, h1, h2, h3, -⟩ := C129_decipher T iv [.write (List.replicate 16 0), .init [1], .init (List.replicate 24 2)] (.write b)
    obtain ⟨out, h⟩ := h3 hr
    cases r with
    | ok a => exact ⟨d, rs, d', a, h1, h2⟩
    | error e => cases h

/-- **C129.** `==` holds between the same errors only, and so do equal texts of `{:?}`, for each of the four types. -/
theorem C129_told_apart :
    (∀ a b : AESError, (a.eq b = true ↔ a = b) ∧ (a.debug = b.debug ↔ a = b)) ∧
    (∀ a b : Pkcs7.UnpadError, (a.eq b = true ↔ a = b) ∧ (a.debug = b.debug ↔ a = b)) ∧
    (∀ a b : DecipherError, (a.eq b = true ↔ a = b) ∧ (a.debug = b.debug ↔ a = b)) ∧
    ∀ a b : Scrypt.ScryptError, (a.eq b = true ↔ a = b) ∧ (a.debug = b.debug ↔ a = b) := by
  refine ⟨?_, ?_, ?_, ?_⟩
  · intro a b; cases a <;> cases b <;> decide
  · intro a b; cases a <;> cases b <;> decide
  · intro a b; rcases a with a | a <;> rcases b with b | b <;> cases a <;> cases b <;> decide
  · intro a b; cases a <;> cases b <;> decide

end Verif.Props.WhichError
