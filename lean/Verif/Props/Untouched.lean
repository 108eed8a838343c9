import Verif.Source.LeftScrypt
import Verif.Source.LeftSalsa
import Verif.Props.SourceScrypt
import Verif.Props.ScryptShape

/-!
Properties C82, C83: `pbkdf2_sha256` and `Scrypt::derive` write the output buffer completely or leave it alone; `salsa20` does not. The source is evaluated
by `Source/Unwind.lean`, so that the buffer can be looked at after a panic.
-/

namespace Verif.Props.Untouched
open Verif Verif.Source Verif.Pbkdf2 Verif.Scrypt

/-- **C82.** A `pbkdf2_sha256` that does not return leaves the buffer with the bytes it had. -/
theorem C82_pbkdf2 (T : Target) (fuel depth : Nat) (hd : 8 ≤ depth) (P S : List U8) (c : Nat) (out : List U8)
    (hout : out.length ≤ T.isizeMax) {e : Err} {outs : List Val}
    (h : callU T crate fuel depth .pbkdf2_pbkdf2_sha256 [bytes P, bytes S, .usize c, bytes out] = (.error e, outs)) :
    outs = [bytes out] := by
  obtain ⟨d, rfl⟩ := Nat.exists_eq_add_of_le' hd
  have h1 := callU_erase T crate fuel (d + 8) .pbkdf2_pbkdf2_sha256 [bytes P, bytes S, .usize c, bytes out]
  rw [h, src_pbkdf2 T fuel (d + 1) P S out c hout] at h1
  rcases hm : pbkdf2_sha256 T P S c out with p | o <;> rw [hm] at h1
  · rw [left_pbkdf2 T fuel (d + 1) P S out c hout hm] at h
    exact (congrArg Prod.snd h).symm
  · cases h1

theorem spec_empty (P S : List U8) (c : Nat) : Spec.Pbkdf2.pbkdf2HmacSha256 P S c ([] : List U8).length = [] :=
  List.take_zero (l := Spec.Pbkdf2.stream Spec.hmacSha256 P S c 0)

/-- **C82.** With overflow checks, the buffer ends up with the derived key or with the bytes it had: the former after a return,
the latter after a panic. -/
theorem C82_pbkdf2_all_or_nothing (T : Target) (hc : T.checks = true) (fuel depth : Nat) (hd : 8 ≤ depth) (P S : List U8) (c : Nat)
    (c1 : 1 ≤ c) (out : List U8) (hout : out.length ≤ T.isizeMax) (hlen : out.length ≤ (2 ^ 32 - 1) * 32) :
    callU T crate fuel depth .pbkdf2_pbkdf2_sha256 [bytes P, bytes S, .usize c, bytes out] =
        (.ok .unit, [bytes (Spec.Pbkdf2.pbkdf2HmacSha256 P S c out.length)]) ∨
      ∃ p, callU T crate fuel depth .pbkdf2_pbkdf2_sha256 [bytes P, bytes S, .usize c, bytes out] =
        (.error (.panic p), [bytes out]) := by
  obtain ⟨d, rfl⟩ := Nat.exists_eq_add_of_le' hd
  have h1 := src_pbkdf2 T fuel (d + 1) P S out c hout
  rcases hm : pbkdf2_sha256 T P S c out with p | o
  · exact .inr ⟨p, left_pbkdf2 T fuel (d + 1) P S out c hout hm⟩
  · left
    have hn : ¬ ∃ p, pbkdf2_sha256 T P S c out = .error p := fun ⟨p, hp⟩ => by rw [hm] at hp; cases hp
    rw [Props.Pbkdf2.C08_pbkdf2_panics_iff T hc P S c out hout] at hn
    rw [hm] at h1
    refine (callU_ok (v := .unit) (outs := [bytes o]) h1).trans ?_
    by_cases h0 : out = []
    · subst h0
      have : pbkdf2_sha256 T P S c [] = .ok [] := pbkdf2_empty ..
      rw [this] at hm
      cases hm
      rw [spec_empty]
    · have hb : ¬ (2 ^ T.bits ≤ 8 * P.length ∨ 2 ^ T.bits ≤ 8 * (64 + S.length + 4)) := fun hb => hn ⟨h0, hb⟩
      rw [Props.Pbkdf2.C08_pbkdf2_correct T P S c out c1 (by omega) (by omega) hout hlen] at hm
      cases hm
      rfl

/-- A buffer of 40 bytes. -/
example (P S : List U8) := C82_pbkdf2_all_or_nothing ⟨.w32, true⟩ rfl 0 8 (Nat.le_refl 8) P S 1000 (by decide) (List.replicate 40 0) (by decide) (by decide)

/-- **C82.** A `derive` that does not return `Ok(())`, but an error or not at all, leaves the buffer with the bytes it had. -/
theorem C82_scrypt (T : Target) (fuel depth : Nat) (hd : 8 ≤ depth) (r n p : Nat) (P S : List U8) (out : List U8)
    (hout : out.length ≤ T.isizeMax) {self : Val}
    (hself : call T crate fuel depth .scrypt_Scrypt_new [.usize r, .usize n, .usize p] = .ok (self, []))
    {res : Verif.Source.R Val} {outs : List Val}
    (h : callU T crate fuel depth .scrypt_Scrypt_derive [self, bytes P, bytes S, bytes out] = (res, outs))
    (hr : res ≠ .ok (.enum .Ok [.unit])) : outs = [bytes out] := by
  obtain ⟨d, rfl⟩ := Nat.exists_eq_add_of_le' hd
  rw [src_Scrypt_new] at hself
  cases hself
  have h1 := src_derive T fuel d (.new r n p) P S out hout
  rcases hm : (Scrypt.new r n p).derive T P S out with q | ⟨o, e | u⟩ <;> rw [hm] at h1
  · rw [left_derive T fuel d _ P S out hout hm] at h
    exact (congrArg Prod.snd h).symm
  · obtain ⟨rfl, -⟩ := (Props.Scrypt.C17_errors_exact T r n p P S out o e).1 hm
    rw [callU_ok (outs := [bytes o]) h1] at h
    exact (congrArg Prod.snd h).symm
  · rw [callU_ok (v := .enum .Ok [.unit]) (outs := [bytes o]) h1] at h
    exact absurd (congrArg Prod.fst h).symm hr

/-- **C82.** With overflow checks, a `derive` that returns `Ok(())` has filled the buffer with the derived key. -/
theorem C82_scrypt_filled (T : Target) (hc : T.checks = true) (fuel depth : Nat) (hd : 8 ≤ depth) (r n p : Nat) (P S : List U8)
    (out : List U8) (hout : out.length ≤ T.isizeMax) {self : Val}
    (hself : call T crate fuel depth .scrypt_Scrypt_new [.usize r, .usize n, .usize p] = .ok (self, []))
    {outs : List Val}
    (h : callU T crate fuel depth .scrypt_Scrypt_derive [self, bytes P, bytes S, bytes out] = (.ok (.enum .Ok [.unit]), outs)) :
    outs = [bytes (Spec.Scrypt.scrypt P S n r p out.length)] := by
  obtain ⟨d, rfl⟩ := Nat.exists_eq_add_of_le' hd
  rw [src_Scrypt_new] at hself
  cases hself
  have h1 := src_derive T fuel d (.new r n p) P S out hout
  have h2 := callU_erase T crate fuel (d + 8) .scrypt_Scrypt_derive [encScrypt (.new r n p), bytes P, bytes S, bytes out]
  rcases hm : (Scrypt.new r n p).derive T P S out with q | ⟨o, e | u⟩ <;> rw [hm] at h1
  · rw [h1] at h2
    rw [show callU T crate fuel (d + 8) .scrypt_Scrypt_derive [encScrypt (.new r n p), bytes P, bytes S, bytes out] = _ from h] at h2
    cases h2
  · rw [callU_ok (outs := [bytes o]) h1] at h
    cases h
  · rw [callU_ok (v := .enum .Ok [.unit]) (outs := [bytes o]) h1] at h
    obtain ⟨hr, hn, hp⟩ := Props.Scrypt.C18_ranges_partial T r n p P S out o hm
    obtain ⟨hmem, htab, hP, hS, hB⟩ := (Props.Scrypt.C16_returns_iff T hc r n p P S out hr hn hp hout).1 ⟨_, hm⟩
    refine (congrArg Prod.snd h).symm.trans ?_
    show [bytes o] = _
    rcases hB with h0 | hB
    · subst h0
      obtain ⟨hl, -⟩ := Props.ScryptShape.C47_prefix T r n p P S [] [] o o hout (Nat.le_refl _) hm hm
      rw [List.eq_nil_of_length_eq_zero hl]
      unfold Spec.Scrypt.scrypt Spec.Scrypt.scryptWith
      exact congrArg (fun x => [bytes x]) (spec_empty P _ 1).symm
    · rw [Props.Scrypt.C16_scrypt_correct T r n p P S out hr hn hp hmem htab hP hS hB hout] at hm
      cases hm
      rfl

/-! ### Cases -/

/-- **C82.** Both outcomes of `pbkdf2_sha256` occur on a 32-bit target with overflow checks: a short salt fills the buffer, one of
`2^29` bytes panics and leaves it. -/
theorem C82_pbkdf2_case (fuel : Nat) (S : List U8) (hS : S.length = 2 ^ 29) :
    callU ⟨.w32, true⟩ crate fuel 8 .pbkdf2_pbkdf2_sha256 [bytes [1], bytes [2], .usize 3, bytes [4, 5]] =
        (.ok .unit, [bytes (Spec.Pbkdf2.pbkdf2HmacSha256 [1] [2] 3 2)]) ∧
      ∃ p, callU ⟨.w32, true⟩ crate fuel 8 .pbkdf2_pbkdf2_sha256 [bytes [1], bytes S, .usize 3, bytes [4, 5]] =
        (.error (.panic p), [bytes [4, 5]]) := by
  constructor
  · refine callU_ok ?_
    rw [src_pbkdf2 _ fuel 1 _ _ _ _ (by decide), Props.Pbkdf2.C08_pbkdf2_correct _ _ _ _ _ (by decide) (by decide) (by decide)
      (by decide) (by decide)]
    rfl
  · obtain ⟨p, hp⟩ := (Props.Pbkdf2.C08_pbkdf2_panics_iff ⟨.w32, true⟩ rfl [1] S 3 [4, 5] (by decide)).2
      ⟨by decide, .inr (by rw [hS]; decide)⟩
    exact ⟨p, left_pbkdf2 _ fuel 1 _ _ _ _ (by decide) hp⟩

/-- **C82.** A `derive` that panics on a 32-bit target, because the table of `2^28` entries does not fit, leaves the buffer. -/
theorem C82_scrypt_case (fuel : Nat) :
    ∃ self p, call ⟨.w32, true⟩ crate fuel 8 .scrypt_Scrypt_new [.usize 1, .usize (2 ^ 28), .usize 1] = .ok (self, []) ∧
      callU ⟨.w32, true⟩ crate fuel 8 .scrypt_Scrypt_derive [self, bytes [1], bytes [2], bytes [4, 5]] =
        (.error (.panic p), [bytes [4, 5]]) := by
  rcases hm : (Scrypt.new 1 (2 ^ 28) 1).derive ⟨.w32, true⟩ [1] [2] [4, 5] with p | o
  · exact ⟨_, p, src_Scrypt_new .., left_derive _ fuel 0 _ _ _ _ (by decide) hm⟩
  · have := (Props.Scrypt.C16_returns_iff ⟨.w32, true⟩ rfl 1 (2 ^ 28) 1 [1] [2] [4, 5] (by decide) ⟨28, rfl⟩ (by decide) (by decide)).1 ⟨o, hm⟩
    exact absurd this.2.1 (by decide)

/-- The hypotheses of `C82_pbkdf2` and `C82_scrypt` are met by those calls. -/
example (fuel : Nat) (S : List U8) (hS : S.length = 2 ^ 29) : [bytes [4, 5]] = [bytes [4, 5]] := by
  obtain ⟨-, p, h⟩ := C82_pbkdf2_case fuel S hS
  exact C82_pbkdf2 ⟨.w32, true⟩ fuel 8 (Nat.le_refl 8) [1] S 3 [4, 5] (by decide) h

example (fuel : Nat) : [bytes [4, 5]] = [bytes [4, 5]] := by
  obtain ⟨self, p, hs, h⟩ := C82_scrypt_case fuel
  exact C82_scrypt ⟨.w32, true⟩ fuel 8 (Nat.le_refl 8) 1 (2 ^ 28) 1 [1] [2] [4, 5] (by decide) hs h (by intro h; cases h)

/-- A derivation that does return, and fills the buffer. -/
example (fuel : Nat) (P S out : List U8) (hP : P.length ≤ 100) (hS : S.length ≤ 100) (ho : out.length ≤ 100) :
    ∃ self outs, callU ⟨.w32, true⟩ crate fuel 8 .scrypt_Scrypt_derive [self, bytes P, bytes S, bytes out] =
      (.ok (.enum .Ok [.unit]), outs) ∧ outs = [bytes (Spec.Scrypt.scrypt P S 128 1 1 out.length)] := by
  have hT : (⟨.w32, true⟩ : Target).bits = 32 ∧ (⟨.w32, true⟩ : Target).isizeMax = 2 ^ 31 - 1 := ⟨rfl, rfl⟩
  have h := Verif.Props.Source.C66_source_scrypt ⟨.w32, true⟩ fuel 8 (Nat.le_refl 8) 1 128 1 P S out (by decide) ⟨7, rfl⟩ (by decide)
    (by decide) (by decide) (by rw [hT.1]; omega) (by rw [hT.1]; omega) (by decide) (by rw [hT.2]; omega)
  rw [src_Scrypt_new] at h
  simp only [bind, Except.bind] at h
  exact ⟨_, _, callU_ok h, C82_scrypt_filled ⟨.w32, true⟩ rfl fuel 8 (Nat.le_refl 8) 1 128 1 P S out (by rw [hT.2]; omega) (src_Scrypt_new ..)
    (callU_ok h)⟩

/-! ### C83 -/

/-- **C83.** A `salsa20` that panics because the input is too short leaves the output buffer with the bytes it had. -/
theorem C83_short_input (T : Target) (fuel depth : Nat) (hd : 8 ≤ depth) (input output : List U8) (rounds : Nat)
    (hi : input.length < 64) :
    callU T crate fuel depth .salsa20_salsa20 [bytes input, .usize rounds, bytes output] =
      (.error (.panic .index), [bytes output]) := by
  obtain ⟨d, rfl⟩ := Nat.exists_eq_add_of_le' hd
  exact left_salsa20_input T fuel (d + 3) input output rounds hi

/-- An input of 63 bytes. -/
example (T : Target) (out : List U8) := C83_short_input T 0 8 (Nat.le_refl 8) (List.replicate 63 1) out 8 (by decide)

/-- **C83.** A `salsa20` that panics because the output buffer is too short has written to it all the whole words of the result that
fit, and nothing else. -/
theorem C83_short_output (T : Target) (fuel depth : Nat) (hd : 8 ≤ depth) (input output : List U8) (rounds : Nat)
    (hi : 64 ≤ input.length) (ho : output.length < 64) :
    callU T crate fuel depth .salsa20_salsa20 [bytes input, .usize rounds, bytes output] =
      (.error (.panic .index), [bytes ((Spec.Salsa20.core rounds (input.take 64)).take (output.length - output.length % 4) ++
        output.drop (output.length - output.length % 4))]) := by
  obtain ⟨d, rfl⟩ := Nat.exists_eq_add_of_le' hd
  rw [left_salsa20_output T fuel (d + 3) input output rounds hi ho, Verif.Salsa20.core_take,
    show 4 * (output.length / 4) = output.length - output.length % 4 by omega]

/-- A buffer of seven bytes gets the first word of the result. -/
example (T : Target) (fuel rounds : Nat) (a : U8) :
    callU T crate fuel 8 .salsa20_salsa20 [bytes (List.replicate 64 a), .usize rounds, bytes [1, 2, 3, 4, 5, 6, 7]] =
      (.error (.panic .index), [bytes ((Spec.Salsa20.core rounds (List.replicate 64 a)).take 4 ++ [5, 6, 7])]) := by
  rw [C83_short_output T fuel 8 (by decide) _ _ _ (by simp) (by simp),
    List.take_of_length_le (l := List.replicate 64 a) (by simp)]
  rfl

end Verif.Props.Untouched
