import Verif.Source.Api
import Verif.Source.Refine.Scrypt
import Verif.Props.Salsa20
import Verif.Props.Scrypt

/-!
Properties C65 and C66: the text of `salsa20.rs` and `scrypt.rs`, evaluated by `Source/Semantics.lean`, computes the
Salsa20 core and scrypt.
-/

namespace Verif.Props.Source
open Verif Verif.Source

/-- **C65.** The source of `salsa20` computes the Salsa20 core on the first 64 bytes of its buffers. -/
theorem C65_source_salsa20 (T : Target) (fuel depth : Nat) (hd : 8 ≤ depth) (input output : List U8) (rounds : Nat)
    (hi : 64 ≤ input.length) (ho : 64 ≤ output.length) :
    call T crate fuel depth .salsa20_salsa20 [bytes input, .usize rounds, bytes output] =
      .ok (.unit, [bytes (Spec.Salsa20.core rounds (input.take 64) ++ output.drop 64)]) := by
  obtain ⟨d, rfl⟩ := Nat.exists_eq_add_of_le' hd
  rw [src_salsa20, (Props.Salsa20.C13_first_block_only input output rounds hi ho).1]
  rfl

/-- **C65.** It panics exactly when a buffer is too short. -/
theorem C65_source_panics (T : Target) (fuel depth : Nat) (hd : 8 ≤ depth) (input output : List U8) (rounds : Nat) :
    (∃ p, call T crate fuel depth .salsa20_salsa20 [bytes input, .usize rounds, bytes output] = .error (.panic p)) ↔
      input.length < 64 ∨ output.length < 64 := by
  obtain ⟨d, rfl⟩ := Nat.exists_eq_add_of_le' hd
  rw [src_salsa20, ← Props.Salsa20.C13_panics_iff input output rounds]
  cases Verif.Salsa20.salsa20 input rounds output with
  | ok d => simp [up, R.ok_bind]
  | error p => exact ⟨fun _ => ⟨p, rfl⟩, fun _ => ⟨p, rfl⟩⟩

/-- An input of 63 bytes. -/
example (T : Target) (fuel : Nat) (out : List U8) :
    ∃ p, call T crate fuel 8 .salsa20_salsa20 [bytes (List.replicate 63 1), .usize 8, bytes out] = .error (.panic p) :=
  (C65_source_panics T fuel 8 (Nat.le_refl 8) (List.replicate 63 1) out 8).2 (.inl (by decide))

/-- The hypotheses are met by 64-byte buffers, and by longer ones. -/
example (T : Target) (fuel : Nat) (a : U8) :
    call T crate fuel 8 .salsa20_salsa20 [bytes (List.replicate 64 a), .usize 4, bytes (List.replicate 65 7)] =
      .ok (.unit, [bytes (Spec.Salsa20.core 4 ((List.replicate 64 a).take 64) ++ [7])]) :=
  C65_source_salsa20 T fuel 8 (Nat.le_refl 8) _ _ _ (by simp) (by simp)

/-- **C66.** The source of `Scrypt`: `new(r, n, p)` and `derive` fill the output buffer with the key of RFC 7914. -/
theorem C66_source_scrypt (T : Target) (fuel depth : Nat) (hd : 8 ≤ depth) (r n p : Nat) (P S out : List U8)
    (hr : 1 ≤ r) (hn : ∃ k, n = 2 ^ k) (hp : 1 ≤ p)
    (hmem : p * 128 * r ≤ T.isizeMax) (htab : n * T.vecSize ≤ T.isizeMax) (hP : 8 * P.length < 2 ^ T.bits)
    (hS : 8 * (64 + S.length + 4) < 2 ^ T.bits) (hB : 8 * (64 + p * 128 * r + 4) < 2 ^ T.bits)
    (hout : out.length ≤ T.isizeMax) :
    (call T crate fuel depth .scrypt_Scrypt_new [.usize r, .usize n, .usize p] >>= fun (self, _) =>
        call T crate fuel depth .scrypt_Scrypt_derive [self, bytes P, bytes S, bytes out]) =
      .ok (.enum .Ok [.unit], [bytes (Spec.Scrypt.scrypt P S n r p out.length)]) := by
  obtain ⟨d, rfl⟩ := Nat.exists_eq_add_of_le' hd
  rw [src_Scrypt_new]
  show call T crate fuel (d + 8) .scrypt_Scrypt_derive _ = _
  rw [src_derive T fuel d _ P S out hout, Props.Scrypt.C16_scrypt_correct T r n p P S out hr hn hp hmem htab hP hS hB hout]
  rfl

/-- **C66.** The source of `derive` rejects `r = 0`, `n = 0`, `n` not a power of two and `p = 0`, in this order, with the error
for the first one, and leaves the buffer alone; with other parameters it never returns an error. -/
theorem C66_source_errors (T : Target) (fuel depth : Nat) (hd : 8 ≤ depth) (r n p : Nat) (P S out : List U8) (o e : Val)
    (hout : out.length ≤ T.isizeMax) :
    (call T crate fuel depth .scrypt_Scrypt_new [.usize r, .usize n, .usize p] >>= fun (self, _) =>
        call T crate fuel depth .scrypt_Scrypt_derive [self, bytes P, bytes S, bytes out]) = .ok (.enum .Err [e], [o]) ↔
      o = bytes out ∧
      ((r = 0 ∧ e = .enum .ScryptError_RIsTooSmall []) ∨
       (r ≠ 0 ∧ n = 0 ∧ e = .enum .ScryptError_NIsTooSmall []) ∨
       (r ≠ 0 ∧ n ≠ 0 ∧ (¬ ∃ k, n = 2 ^ k) ∧ e = .enum .ScryptError_NIsNotAPowerOfTwo []) ∨
       (r ≠ 0 ∧ (∃ k, n = 2 ^ k) ∧ p = 0 ∧ e = .enum .ScryptError_PIsTooSmall [])) := by
  obtain ⟨d, rfl⟩ := Nat.exists_eq_add_of_le' hd
  rw [src_Scrypt_new]
  show call T crate fuel (d + 8) .scrypt_Scrypt_derive _ = _ ↔ _
  rw [src_derive T fuel d _ P S out hout]
  obtain ⟨h1, h2, h3, h4⟩ := Props.Scrypt.C17_validation T r n p P S out
  constructor
  · intro h
    cases hx : (Verif.Scrypt.Scrypt.new r n p).derive T P S out with
    | error q => rw [hx] at h; cases h
    | ok res =>
      rw [hx] at h
      obtain ⟨b, x | u⟩ := res
      · obtain ⟨rfl, hb⟩ := (Props.Scrypt.C17_errors_exact T r n p P S out b x).1 hx
        cases h
        rcases hb with ⟨a, rfl⟩ | ⟨a, c, rfl⟩ | ⟨a, c, d, rfl⟩ | ⟨a, c, d, rfl⟩ <;> simp [encScryptError, *]
      · cases h
  · rintro ⟨rfl, ⟨a, rfl⟩ | ⟨a, c, rfl⟩ | ⟨a, c, d, rfl⟩ | ⟨a, c, d, rfl⟩⟩
    · rw [h1 a]; rfl
    · rw [h2 a c]; rfl
    · rw [h3 a c d]; rfl
    · rw [h4 a c d]; rfl

/-- **C66.** With overflow checks, and for accepted parameters, the source of `derive` returns (rather than panics) exactly when
the memory sizes and bit lengths fit. -/
theorem C66_source_returns_iff (T : Target) (hc : T.checks = true) (fuel depth : Nat) (hd : 8 ≤ depth) (r n p : Nat)
    (P S out : List U8) (hr : 1 ≤ r) (hn : ∃ k, n = 2 ^ k) (hp : 1 ≤ p) (hout : out.length ≤ T.isizeMax) :
    (∃ res, (call T crate fuel depth .scrypt_Scrypt_new [.usize r, .usize n, .usize p] >>= fun (self, _) =>
        call T crate fuel depth .scrypt_Scrypt_derive [self, bytes P, bytes S, bytes out]) = .ok res) ↔
      p * 128 * r ≤ T.isizeMax ∧ n * T.vecSize ≤ T.isizeMax ∧ 8 * P.length < 2 ^ T.bits ∧
        8 * (64 + S.length + 4) < 2 ^ T.bits ∧ (out = [] ∨ 8 * (64 + p * 128 * r + 4) < 2 ^ T.bits) := by
  obtain ⟨d, rfl⟩ := Nat.exists_eq_add_of_le' hd
  rw [← Props.Scrypt.C16_returns_iff T hc r n p P S out hr hn hp hout, src_Scrypt_new]
  show (∃ res, call T crate fuel (d + 8) .scrypt_Scrypt_derive _ = _) ↔ _
  rw [src_derive T fuel d _ P S out hout]
  cases (Verif.Scrypt.Scrypt.new r n p).derive T P S out with
  | error q => exact ⟨fun ⟨_, h⟩ => (by cases h), fun ⟨_, h⟩ => (by cases h)⟩
  | ok x => exact ⟨fun _ => ⟨_, rfl⟩, fun _ => ⟨_, rfl⟩⟩

/-- A table of `2 ^ 28` entries does not fit on a 32-bit target. -/
example (fuel : Nat) : ¬ ∃ res, (call ⟨.w32, true⟩ crate fuel 8 .scrypt_Scrypt_new [.usize 1, .usize (2 ^ 28), .usize 1] >>= fun (self, _) =>
    call ⟨.w32, true⟩ crate fuel 8 .scrypt_Scrypt_derive [self, bytes [1], bytes [2], bytes [0]]) = .ok res := by
  rw [C66_source_returns_iff ⟨.w32, true⟩ rfl fuel 8 (Nat.le_refl 8) 1 (2 ^ 28) 1 [1] [2] [0] (by decide) ⟨28, rfl⟩ (by decide) (by decide)]
  exact fun h => absurd h.2.1 (by decide)

/-- The hypotheses of `C66_source_scrypt` hold on every target with `r = 8`, `n = 16`, `p = 1` and 64 bytes of output. -/
example (T : Target) (fuel : Nat) :
    (call T crate fuel 8 .scrypt_Scrypt_new [.usize 8, .usize 16, .usize 1] >>= fun (self, _) =>
        call T crate fuel 8 .scrypt_Scrypt_derive [self, bytes [1, 2], bytes [3], bytes (List.replicate 64 0)]) =
      .ok (.enum .Ok [.unit], [bytes (Spec.Scrypt.scrypt [1, 2] [3] 16 8 1 64)]) := by
  have hi : T.isizeMax = 2 ^ 31 - 1 ∨ T.isizeMax = 2 ^ 63 - 1 := by
    rcases T.bits_cases with h | h <;> simp [Target.isizeMax, h]
  have hv : T.vecSize ≤ 24 := by
    rcases T.bits_cases with h | h <;> simp [Target.vecSize, h]
  have := T.two_pow_ge
  have h := C66_source_scrypt T fuel 8 (Nat.le_refl 8) 8 16 1 [1, 2] [3] (List.replicate 64 0) (by decide) ⟨4, rfl⟩ (by decide)
    (by omega) (by omega) (by simp only [List.length_cons, List.length_nil]; omega)
    (by simp only [List.length_cons, List.length_nil]; omega) (by omega) (by rw [List.length_replicate]; omega)
  rwa [List.length_replicate] at h

/-- A rejected parameter: `n = 12` is not a power of two. -/
example (T : Target) (fuel : Nat) :
    (call T crate fuel 8 .scrypt_Scrypt_new [.usize 8, .usize 12, .usize 1] >>= fun (self, _) =>
        call T crate fuel 8 .scrypt_Scrypt_derive [self, bytes [], bytes [], bytes [7]]) =
      .ok (.enum .Err [.enum .ScryptError_NIsNotAPowerOfTwo []], [bytes [7]]) :=
  (C66_source_errors T fuel 8 (Nat.le_refl 8) 8 12 1 [] [] [7] _ _
    (by rcases T.bits_cases with h | h <;> simp [Target.isizeMax, h])).2
    ⟨rfl, .inr (.inr (.inl ⟨by decide, by decide, fun ⟨k, hk⟩ => by
      have : k < 4 := by
        apply Classical.byContradiction
        intro h
        have := Nat.pow_le_pow_right (n := 2) (by decide) (show 4 ≤ k by omega)
        omega
      have : k = 0 ∨ k = 1 ∨ k = 2 ∨ k = 3 := by omega
      rcases this with rfl | rfl | rfl | rfl <;> omega, rfl⟩))⟩

end Verif.Props.Source
