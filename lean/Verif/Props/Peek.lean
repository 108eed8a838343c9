import Verif.Proof.ScryptPeek
import Verif.Props.GuessingScrypt
import Verif.Props.SideChannelScrypt

/-!
Property C137: who has seen `Scrypt` at work can try passwords without a table, and at a fraction of the price of C111. The entry of the table
that is read first is seen, and to know it for another password takes the first half of the work on one part of `B`, with one value of `128 * r`
octets at a time. The trial is `peek` in `Spec/ScryptPeek.lean`. The observer is the one of `Verif/Source/Leak.lean`.
-/

namespace Verif.Props.Peek
open Verif Verif.Source Verif.Props.SideChannelScrypt Spec.ScryptPrice
open Verif.Scrypt (Scrypt)
open Spec.ScryptGames (Params)
open Spec.GuessGames (blockOf)
open Verif.Props.GuessingScrypt (run_blockMix run_blocks flatMap_part F_length)

theorem run_advance {β : Type} (r : Nat) (B : List U8) (n j : Nat) (k : List U8 → Algorithm β) :
    (advance r n (Spec.Scrypt.V r B j) k).run functions = (k (Spec.Scrypt.V r B (j + n))).run functions := by
  induction n generalizing j with
  | zero => rfl
  | succ n ih =>
    rw [advance, run_blockMix, show j + (n + 1) = j + 1 + n by omega, ← ih (j + 1)]
    rfl

theorem lane_eq (P S : List U8) (r p i : Nat) (hi : i < p) :
    SideChannelScrypt.lane P S r p i = (List.range (4 * r)).flatMap fun x => Spec.Pbkdf2.F Spec.hmacSha256 P S 1 (4 * r * i + x + 1) := by
  have hf (x : Nat) : (Spec.Pbkdf2.F Spec.hmacSha256 P S 1 (x + 1)).length = 32 := F_length _ _ _
  have h := flatMap_part hf (4 * r * p) (4 * r * i) (4 * r) (by
    rw [← Nat.mul_succ]
    exact Nat.mul_le_mul_left _ hi)
  have hl : (Spec.Pbkdf2.stream Spec.hmacSha256 P S 1 (4 * r * p)).length = p * 128 * r := by
    rw [Spec.Pbkdf2.stream, List.length_flatMap]
    simp only [hf, List.map_const', List.sum_replicate_nat, List.length_range]
    ring
  rw [SideChannelScrypt.lane, Spec.Pbkdf2.pbkdf2HmacSha256, Spec.Pbkdf2.pbkdf2, show (p * 128 * r + 31) / 32 = 4 * r * p by
    rw [show p * 128 * r = 32 * (4 * r * p) by ring]
    omega, List.take_of_length_le hl.le, show 128 * r * i = 32 * (4 * r * i) by ring, show 128 * r = 32 * (4 * r) by ring]
  exact h

theorem run_peek (P S : List U8) (r n p i : Nat) (hi : i < p) :
    (peek ⟨r, n, p⟩ (blockOf P) S i).run functions = position P S r n p i 0 % n := by
  have h := run_advance r (SideChannelScrypt.lane P S r p i) n 0 fun X => .result (Spec.Scrypt.integerify r X % n)
  rw [peek, blocks_bind, run_bind, run_blocks, ← lane_eq P S r p i hi]
  rw [Nat.zero_add] at h
  exact h

/-- **C137.** For all passphrases, salts and buffers of given lengths, an observer of `derive` sees the result of the trial with the right
passphrase, for every part of `B`: `seen` depends on nothing else than what is observed. The trial of a passphrase evaluates HMAC `4 * r` times
and the Salsa20/8 core `2 * r * n` times, which is one part in `2 * p` of the price of C111, and it needs no table. -/
theorem C137_seen (T : Target) (fuel depth : Nat) (hd : 8 ≤ depth) (r n p lP lS lout : Nat) (hr : 1 ≤ r) (hn : ∃ e, n = 2 ^ e) (hp : 1 ≤ p)
    (hmem : p * 128 * r ≤ T.isizeMax) (htab : n * T.vecSize ≤ T.isizeMax) (hP : 8 * lP < 2 ^ T.bits) (hS : 8 * (64 + lS + 4) < 2 ^ T.bits)
    (self : Val) (os : List Val) (hnew : call T crate fuel depth .scrypt_Scrypt_new [.usize r, .usize n, .usize p] = .ok (self, os)) :
    (∃ seen : Trace → (i : Nat) → Nat, ∀ P S out : List U8, P.length = lP → S.length = lS → out.length = lout → ∀ i < p,
      seen (callT T crate fuel depth .scrypt_Scrypt_derive [self, bytes P, bytes S, bytes out]).1 i = (peek ⟨r, n, p⟩ (blockOf P) S i).run functions) ∧
    (∀ key salt i, (peek ⟨r, n, p⟩ key salt i).Within (4 * r) (2 * r * n)) ∧ 2 * p * (2 * r * n) = price ⟨r, n, p⟩ := by
  refine ⟨?_, fun key salt i => peek_within ⟨r, n, p⟩ key salt i, by rw [price]; ring⟩
  classical
  let trace (w : List U8 × List U8 × List U8) : Trace :=
    (callT T crate fuel depth .scrypt_Scrypt_derive [self, bytes w.1, bytes w.2.1, bytes w.2.2]).1
  let Fits (t : Trace) (w : List U8 × List U8 × List U8) : Prop := w.1.length = lP ∧ w.2.1.length = lS ∧ w.2.2.length = lout ∧ trace w = t
  refine ⟨fun t i => if h : ∃ w, Fits t w then (peek ⟨r, n, p⟩ (blockOf h.choose.1) h.choose.2.1 i).run functions else 0, fun P S out h1 h2 h3 i hi => ?_⟩
  have h : ∃ w, Fits (trace (P, S, out)) w := ⟨(P, S, out), h1, h2, h3, rfl⟩
  have hw := h.choose_spec
  refine (dif_pos h).trans ?_
  rw [run_peek _ _ _ _ _ _ hi, run_peek _ _ _ _ _ _ hi]
  exact C76_entries T fuel depth hd r n p h.choose.1 h.choose.2.1 h.choose.2.2 P S out hr hn hp hmem htab (by rw [hw.1]; exact hP)
    (by rw [hw.2.1]; exact hS) (hw.1.trans h1.symm) (hw.2.1.trans h2.symm) (hw.2.2.1.trans h3.symm) self os hnew hw.2.2.2 i hi 0
    (by obtain ⟨e, rfl⟩ := hn; positivity)

/-- **C137.** A wrong password passes the trial once in `N` times, if HMAC and the core are taken for random functions: for two passwords of which
HMAC makes different blocks, the probability that the entries are the same is at most `1 / N` and a small term. -/
theorem C137_chance (P : Params) (hr : 1 ≤ P.r) (e : Nat) (hN : P.N = 2 ^ e) (he : e ≤ 512) (hsize : P.size ≤ (2 ^ 32 - 1) * 32)
    (password password' salt : List U8) (hne : blockOf password ≠ blockOf password') (i : Nat) (hi : i < P.p) :
    ((peek P (blockOf password) salt i).bind fun v => (peek P (blockOf password') salt i).bind fun j => .result (decide (j = v))).random id (fun _ => none) ≤
      1 / P.N + 8 * (P.r * P.N) ^ 2 / 2 ^ 512 := by
  obtain ⟨r, N, p⟩ := P
  obtain rfl : N = 2 ^ e := hN
  have h1 : 4 * r * i + 4 * r ≤ 4 * r * p := by
    rw [← Nat.mul_succ]
    exact Nat.mul_le_mul_left _ hi
  have h2 : Params.size ⟨r, 2 ^ e, p⟩ = 32 * (4 * r * p) := by
    rw [Params.size]
    ring
  have := same_random r e p hr he (blockOf password) (blockOf password') salt hne i (by omega)
  simpa only [Nat.cast_pow, Nat.cast_ofNat] using this

/-! ### A case -/

/-- The parameters of `Scrypt::new(8, 1024, 16)`, with passphrases of 8 bytes, salts of 16 and buffers of 32, on every target: the trial costs
one part in 32 of the price. -/
example (T : Target) (fuel : Nat) : ∃ self os, call T crate fuel 8 .scrypt_Scrypt_new [.usize 8, .usize 1024, .usize 16] = .ok (self, os) ∧
    (∃ seen : Trace → (i : Nat) → Nat, ∀ P S out : List U8, P.length = 8 → S.length = 16 → out.length = 32 → ∀ i < 16,
      seen (callT T crate fuel 8 .scrypt_Scrypt_derive [self, bytes P, bytes S, bytes out]).1 i = (peek ⟨8, 1024, 16⟩ (blockOf P) S i).run functions) ∧
    price ⟨8, 1024, 16⟩ = 32 * 16384 := by
  have hb := T.two_pow_ge
  have hi : 2 ^ 31 - 1 ≤ T.isizeMax := by
    rw [Target.isizeMax]; rcases T.bits_cases with h | h <;> simp [h]
  have hv := Verif.Scrypt.vecSize_le T
  exact ⟨_, _, src_Scrypt_new .., (C137_seen T fuel 8 le_rfl 8 1024 16 8 16 32 (by decide) ⟨10, rfl⟩ (by decide) (by omega) (by omega) (by omega) (by omega)
    _ _ (src_Scrypt_new ..)).1, by decide⟩

/-- Trials do tell passphrases apart: those of `C76_leaks`. -/
example : (peek ⟨1, 2, 1⟩ (blockOf [1]) [2] 0).run functions = 0 ∧ (peek ⟨1, 2, 1⟩ (blockOf [2]) [2] 0).run functions = 1 := by
  rw [run_peek _ _ _ _ _ _ (by decide), run_peek _ _ _ _ _ _ (by decide)]
  exact ⟨by rw [position, lane_one _ _ _ lane1_eq (by simp [lane1, Spec.beBytes])]; exact first_entry1,
    by rw [position, lane_one _ _ _ lane2_eq (by simp [lane2, Spec.beBytes])]; exact first_entry2⟩

/-- The hypotheses of `C137_chance` are met by the passphrases `[1]` and `[2]`. -/
example := C137_chance ⟨8, 1024, 16⟩ (by decide) 10 rfl (by decide) (by decide) [1] [2] [7] (by decide) 3 (by decide)

end Verif.Props.Peek
