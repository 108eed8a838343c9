import Verif.Proof.Sha256Stream
import Mathlib.Data.Nat.Nth
import Mathlib.Data.Nat.Prime.Basic
import Mathlib.Data.Nat.Count
import Mathlib.Analysis.SpecialFunctions.Pow.Real
import Mathlib.Tactic.Linarith

/-! Properties C01-C05: SHA-256. -/

namespace Verif.Props.Sha256
open Verif Verif.Sha256

/-- Feed the chunks to `update` one after the other, then call `digest` once. -/
def hashChunks (T : Target) (chunks : List (List U8)) : M (List U8) := do
  let s ← chunks.foldlM (SHA256.update T) SHA256.new
  let (_, d) ← s.digest T
  return d.toList

/-- The result of hashing, for all lengths for which nothing panics. -/
theorem hashChunks_eq (T : Target) (chunks : List (List U8))
    (h : T.checks = false ∨ 8 * chunks.flatten.length < 2 ^ T.bits) :
    hashChunks T chunks =
      .ok (Spec.Sha256.sha256WithLength (8 * chunks.flatten.length % 2 ^ T.bits) chunks.flatten) := by
  unfold hashChunks
  rw [foldlM_update]
  obtain ⟨s, h1, hR⟩ := update_R T chunks.flatten .new .start (R_new T)
    (h.imp id (fun h => by simp only [Spec.Sha256.Machine.start]; omega))
  rw [h1]
  obtain ⟨s', d, h2, _, h3⟩ := digest_R T s _ hR (h.imp id (fun h => by
    rw [absorb_start_total, Nat.mod_eq_of_lt] <;> omega))
  simp only [ok_bind, h2, h3, finish_start, pure_eq_ok]
  congr 2
  rw [absorb_start_total, lengthField, Nat.mod_mul_mod, Nat.mul_comm]

/-- **C01.** Feeding a message in any chunks and calling `digest` once returns the FIPS 180-4 hash of the message,
without panicking, whenever the bit length of the message fits a `usize`. -/
theorem C01_sha256_correct (T : Target) (chunks : List (List U8)) (h : 8 * chunks.flatten.length < 2 ^ T.bits) :
    hashChunks T chunks = .ok (Spec.Sha256.sha256 chunks.flatten) := by
  rw [hashChunks_eq T chunks (.inr h), Nat.mod_eq_of_lt h]
  rfl

/-- The hypothesis of `C01_sha256_correct` holds on every target for a message in three pieces, one of them empty. -/
example (T : Target) : hashChunks T [[0x61], [], [0x62, 0x63]] = .ok (Spec.Sha256.sha256 [0x61, 0x62, 0x63]) :=
  C01_sha256_correct T _ (by
    have h := T.two_pow_ge
    simp only [List.flatten_cons, List.flatten_nil, List.length_append, List.length_cons, List.length_nil]
    omega)

/-- **C02.** Two ways of cutting the same bytes into `update` calls have the same effect on every instance. -/
theorem C02_update_chunking (T : Target) (s : SHA256) (cs ds : List (List U8)) (h : cs.flatten = ds.flatten) :
    cs.foldlM (SHA256.update T) s = ds.foldlM (SHA256.update T) s := by
  rw [foldlM_update, foldlM_update, h]

example (T : Target) (s : SHA256) :
    [[1, 2], [], [3]].foldlM (SHA256.update T) s = [[1], [2, 3]].foldlM (SHA256.update T) s :=
  C02_update_chunking T s _ _ rfl

/-- **C03.** With overflow checks on, hashing panics exactly for messages whose bit length does not fit a `usize`. -/
theorem C03_length_limit_checked (T : Target) (hc : T.checks = true) (chunks : List (List U8)) :
    (∃ p, hashChunks T chunks = .error p) ↔ 2 ^ T.bits ≤ 8 * chunks.flatten.length := by
  constructor
  · rintro ⟨p, hp⟩
    apply Nat.le_of_not_lt
    intro h
    rw [C01_sha256_correct T chunks h] at hp
    cases hp
  · intro h
    refine ⟨.overflow, ?_⟩
    unfold hashChunks
    rw [foldlM_update]
    by_cases hl : chunks.flatten.length < 2 ^ T.bits
    · obtain ⟨s, h1, hR⟩ := update_R T chunks.flatten .new .start (R_new T)
        (.inr (by simpa [Spec.Sha256.Machine.start] using hl))
      rw [h1, ok_bind, digest_panic T s _ hR hc, error_bind]
      rw [absorb_start_total, Nat.mod_eq_of_lt hl]
      omega
    · rw [update_overflow T _ _ _ (R_new T) hc, error_bind]
      · exact Nat.two_pow_pos _
      · simp only [Spec.Sha256.Machine.start]; omega

/-- Half a gigabyte in two pieces makes the 32-bit debug build panic. -/
example (a b : List U8) (ha : a.length = 2 ^ 28) (hb : b.length = 2 ^ 28) : ∃ p, hashChunks ⟨.w32, true⟩ [a, b] = .error p :=
  (C03_length_limit_checked ⟨.w32, true⟩ rfl _).mpr (by
    simp only [List.flatten_cons, List.flatten_nil, List.length_append, List.length_nil, ha, hb]; decide)

/-- **C03.** With overflow checks off, hashing never panics, and the hash is the one with the length field reduced modulo
the `usize` range. -/
theorem C03_length_limit_unchecked (T : Target) (hc : T.checks = false) (chunks : List (List U8)) :
    hashChunks T chunks =
      .ok (Spec.Sha256.sha256WithLength (8 * chunks.flatten.length % 2 ^ T.bits) chunks.flatten) :=
  hashChunks_eq T chunks (.inl hc)

/-- The 32-bit release build hashes them with 0 in the place of their length. -/
example (a b : List U8) (ha : a.length = 2 ^ 28) (hb : b.length = 2 ^ 28) :
    hashChunks ⟨.w32, false⟩ [a, b] = .ok (Spec.Sha256.sha256WithLength 0 (a ++ b)) := by
  have h := C03_length_limit_unchecked ⟨.w32, false⟩ rfl [a, b]
  rw [List.flatten_cons, List.flatten_cons, List.flatten_nil, List.append_nil, List.length_append, ha, hb] at h
  exact h

/-- **C03.** On a 64-bit target every message of fewer than `2 ^ 64` bits is hashed correctly. -/
theorem C03_length_limit_w64 (c : Bool) (chunks : List (List U8)) (h : 8 * chunks.flatten.length < 2 ^ 64) :
    hashChunks ⟨.w64, c⟩ chunks = .ok (Spec.Sha256.sha256 chunks.flatten) :=
  C01_sha256_correct _ _ h

/-- With 64 bits nothing special happens to them. -/
example (c : Bool) (a b : List U8) (ha : a.length = 2 ^ 28) (hb : b.length = 2 ^ 28) := C03_length_limit_w64 c [a, b] (by
  simp only [List.flatten_cons, List.flatten_nil, List.length_append, List.length_nil, ha, hb]; decide)

/-- **C03.** On a 32-bit target with overflow checks the limit is `2 ^ 29` bytes. -/
theorem C03_length_limit_w32 (chunks : List (List U8)) :
    (∃ p, hashChunks ⟨.w32, true⟩ chunks = .error p) ↔ 2 ^ 29 ≤ chunks.flatten.length := by
  rw [C03_length_limit_checked ⟨.w32, true⟩ rfl]
  show 2 ^ 32 ≤ _ ↔ _
  omega

/-- Messages beyond the limit exist: any `n ≥ 2 ^ 29` zero bytes, in two updates, make the 32-bit debug build panic. -/
example (n : Nat) (hn : 2 ^ 29 ≤ n) :
    ∃ p, hashChunks ⟨.w32, true⟩ [List.replicate n 0, [1, 2]] = .error p :=
  (C03_length_limit_w32 _).mpr (by
    simp only [List.flatten_cons, List.flatten_nil, List.length_append, List.length_replicate]
    omega)

/-! ### C04: histories -/

/-- A call on an instance. -/
inductive Op where
  | update (data : List U8)
  | digest

/-- Run a history on a model instance, collecting the returned digests. -/
def run (T : Target) : List Op → SHA256 → M (List (List U8))
  | [], _ => return []
  | .update data :: ops, s => do
    let s ← s.update T data
    run T ops s
  | .digest :: ops, s => do
    let (s, d) ← s.digest T
    let ds ← run T ops s
    return d.toList :: ds

/-- Run a history on the abstract machine; the length field is `8 * total` modulo `2 ^ bits`. -/
def specRun (bits : Nat) : List Op → Spec.Sha256.Machine → List (List U8)
  | [], _ => []
  | .update data :: ops, m => specRun bits ops (m.absorb data)
  | .digest :: ops, m =>
    let (m', d) := m.finish (8 * m.total % 2 ^ bits)
    d :: specRun bits ops m'

/-- Number of bytes fed by a history. -/
def fed : List Op → Nat
  | [] => 0
  | .update data :: ops => data.length + fed ops
  | .digest :: ops => fed ops

theorem run_eq (T : Target) (ops : List Op) (s : SHA256) (m : Spec.Sha256.Machine) (hR : R T s m)
    (h : T.checks = false ∨ 8 * (m.total + fed ops) < 2 ^ T.bits) :
    run T ops s = .ok (specRun T.bits ops m) := by
  induction ops generalizing s m with
  | nil => rfl
  | cons op ops ih =>
    cases op with
    | update data =>
      obtain ⟨s', h1, hR'⟩ := update_R T data s m hR (h.imp id (fun h => by simp only [fed] at h; omega))
      simp only [run, specRun, h1, ok_bind]
      exact ih _ _ hR' (h.imp id (fun h => by simp only [fed] at h; simp only [Spec.Sha256.Machine.absorb]; omega))
    | digest =>
      obtain ⟨s', d, h1, hR', h3⟩ := digest_R T s m hR (h.imp id (fun h => by
        simp only [fed] at h
        have hm := Nat.mod_le m.total (2 ^ T.bits)
        omega))
      have hf : lengthField T m.total = 8 * m.total % 2 ^ T.bits := by
        rw [lengthField, Nat.mod_mul_mod, Nat.mul_comm]
      rw [hf] at hR' h3
      simp only [run, specRun, h1, ok_bind, pure_eq_ok, ← h3]
      rw [ih _ _ hR' (h.imp id (fun h => by simpa only [fed, Spec.Sha256.Machine.finish] using h))]
      rfl

/-- **C04.** Every history of `update` and `digest` calls returns the digests of the abstract machine, whose `finish`
absorbs the padding and does not reset (no panic without overflow checks, or while the bit length fits a `usize`). -/
theorem C04_history (T : Target) (ops : List Op) (h : T.checks = false ∨ 8 * fed ops < 2 ^ T.bits) :
    run T ops .new = .ok (specRun T.bits ops .start) :=
  run_eq T ops _ _ (R_new T) (h.imp id (fun h => by simpa [Spec.Sha256.Machine.start] using h))

theorem abc_two_digests : ∀ (w : Bool) (c : Bool),
    run ⟨if w then .w64 else .w32, c⟩ [.update [0x61, 0x62, 0x63], .digest, .digest] .new =
      .ok [Spec.beBytes 32 0xba7816bf8f01cfea414140de5dae2223b00361a396177a9cb410ff61f20015ad,
        Spec.beBytes 32 0x1de51655e1a8ca5f570c062c6fef497dd8110762bd8a7a48dd95482f7d22e0a2] := by
  decide +kernel

/-- **C04.** A history with two `digest` calls: the first returns the hash of the message, the second does not. -/
theorem C04_second_digest_differs (T : Target) :
    ∃ d, run T [.update [0x61, 0x62, 0x63], .digest, .digest] .new =
      .ok [Spec.Sha256.sha256 [0x61, 0x62, 0x63], d] ∧ d ≠ Spec.Sha256.sha256 [0x61, 0x62, 0x63] := by
  have hT : ∃ w : Bool, T = ⟨if w then .w64 else .w32, T.checks⟩ := by
    obtain ⟨w, c⟩ := T
    cases w
    · exact ⟨false, rfl⟩
    · exact ⟨true, rfl⟩
  have h8 : 8 * 3 % 2 ^ T.bits = 8 * 3 := Nat.mod_eq_of_lt (by have := T.two_pow_ge; omega)
  have hrun := C04_history T [.update [0x61, 0x62, 0x63], .digest, .digest]
    (.inr (by have := T.two_pow_ge; simp only [fed, List.length_cons, List.length_nil]; omega))
  have hspec : specRun T.bits [.update [0x61, 0x62, 0x63], .digest, .digest] .start =
      [Spec.Sha256.sha256 [0x61, 0x62, 0x63],
        ((((Spec.Sha256.Machine.start.absorb [0x61, 0x62, 0x63]).finish (8 * 3)).1).finish (8 * 3)).2] := by
    have e := finish_start [0x61, 0x62, 0x63] (8 * 3)
    simp only [specRun, Spec.Sha256.sha256, ← e, absorb_start_total, List.length_cons, List.length_nil,
      Nat.zero_add, Nat.reduceAdd, h8]
    rw [show ((Spec.Sha256.Machine.start.absorb [0x61, 0x62, 0x63]).finish (8 * 3)).1.total = 3 from rfl, h8]
  obtain ⟨w, hw⟩ := hT
  have hval := abc_two_digests w T.checks
  rw [← hw, hrun, hspec] at hval
  simp only [Except.ok.injEq, List.cons.injEq, and_true] at hval
  rw [hrun, hspec]
  refine ⟨_, rfl, ?_⟩
  rw [hval.1, hval.2]
  decide +kernel

/-! ### C05: constants -/

theorem isPrime_iff (n : Nat) : Spec.Sha256.isPrime n = true ↔ Nat.Prime n := by
  rw [Spec.Sha256.isPrime, Nat.prime_def_lt]
  simp only [Bool.and_eq_true, decide_eq_true_eq, List.all_eq_true, List.mem_range, Bool.or_eq_true]
  refine and_congr_right fun h2 => forall_congr' fun d => forall_congr' fun hd => ?_
  rw [Nat.dvd_iff_mod_eq_zero]
  constructor
  · rintro (h | h) h0
    · rcases d with _ | _ | d
      · simp at h0; omega
      · rfl
      · omega
    · exact absurd h0 h
  · intro h
    by_cases h0 : n % d = 0
    · left; have := h h0; omega
    · right; exact h0

theorem count_table : ∀ t : Fin 64, Spec.Sha256.isPrime (Spec.Sha256.primes.getD t 0) = true ∧
    (List.range (Spec.Sha256.primes.getD t 0)).countP Spec.Sha256.isPrime = t := by decide +kernel

/-- The specification's list of primes is the list of the first 64 primes. -/
theorem primes_eq (t : Nat) (ht : t < 64) : Spec.Sha256.primes.getD t 0 = Nat.nth Nat.Prime t := by
  obtain ⟨h1, h2⟩ := count_table ⟨t, ht⟩
  simp only at h1 h2
  have h3 : Nat.count Nat.Prime (Spec.Sha256.primes.getD t 0) = t := by
    rw [Nat.count]
    conv => rhs; rw [← h2]
    apply List.countP_congr
    intro x _
    simp [isPrime_iff]
  have := Nat.nth_count ((isPrime_iff _).mp h1)
  rw [h3] at this
  exact this.symm

theorem K_root_table : ∀ t : Fin 64,
    let p := Spec.Sha256.primes.getD t 0
    let a := Spec.Sha256.root 3 p
    let k := K[t].toNat
    a ^ 3 ≤ p ∧ p < (a + 1) ^ 3 ∧ (a * 2 ^ 32 + k) ^ 3 ≤ p * 2 ^ 96 ∧ p * 2 ^ 96 < (a * 2 ^ 32 + k + 1) ^ 3 := by
  decide +kernel

theorem H_root_table : ∀ t : Fin 8,
    let p := Spec.Sha256.primes.getD t 0
    let a := Spec.Sha256.root 2 p
    let k := H[t].toNat
    a ^ 2 ≤ p ∧ p < (a + 1) ^ 2 ∧ (a * 2 ^ 32 + k) ^ 2 ≤ p * 2 ^ 64 ∧ p * 2 ^ 64 < (a * 2 ^ 32 + k + 1) ^ 2 := by
  decide +kernel

theorem floor_fract_root (e p a k : ℕ) (he : e ≠ 0) (h1 : a ^ e ≤ p) (h2 : p < (a + 1) ^ e)
    (h3 : (a * 2 ^ 32 + k) ^ e ≤ p * 2 ^ (32 * e)) (h4 : p * 2 ^ (32 * e) < (a * 2 ^ 32 + k + 1) ^ e) :
    ⌊Int.fract ((p : ℝ) ^ (1 / (e : ℝ))) * 2 ^ 32⌋ = (k : ℤ) := by
  set x : ℝ := (p : ℝ) ^ (1 / (e : ℝ)) with hx
  have hx0 : 0 ≤ x := by positivity
  have hxe : x ^ e = p := by
    rw [hx, one_div]
    exact Real.rpow_inv_natCast_pow (by positivity) he
  have hy : (x * 2 ^ 32) ^ e = p * 2 ^ (32 * e) := by rw [mul_pow, hxe, ← pow_mul]
  have c1 : (a : ℝ) ≤ x := by
    refine le_of_pow_le_pow_left₀ he hx0 ?_
    rw [hxe]; exact_mod_cast h1
  have c2 : x < a + 1 := by
    refine lt_of_pow_lt_pow_left₀ e (by positivity) ?_
    rw [hxe]; exact_mod_cast h2
  have c3 : (a : ℝ) * 2 ^ 32 + k ≤ x * 2 ^ 32 := by
    refine le_of_pow_le_pow_left₀ he (by positivity) ?_
    rw [hy]; exact_mod_cast h3
  have c4 : x * 2 ^ 32 < (a : ℝ) * 2 ^ 32 + k + 1 := by
    refine lt_of_pow_lt_pow_left₀ e (by positivity) ?_
    rw [hy]; exact_mod_cast h4
  have hfl : ⌊x⌋ = (a : ℤ) := by
    rw [Int.floor_eq_iff]
    exact ⟨by exact_mod_cast c1, by exact_mod_cast c2⟩
  have hfr : Int.fract x = x - a := by
    rw [Int.fract, hfl]; simp
  rw [hfr, Int.floor_eq_iff]
  constructor
  · push_cast; linarith
  · push_cast; linarith

/-- **C05.** Round constant `t` is the first 32 bits of the fractional part of the cube root of the `t`-th prime. -/
theorem C05_round_constants (t : ℕ) (ht : t < 64) :
    (K[t].toNat : ℤ) = ⌊Int.fract ((Nat.nth Nat.Prime t : ℝ) ^ (1 / 3 : ℝ)) * 2 ^ 32⌋ := by
  obtain ⟨h1, h2, h3, h4⟩ := K_root_table ⟨t, ht⟩
  rw [← primes_eq t ht]
  exact (floor_fract_root 3 _ _ _ (by decide) h1 h2 h3 h4).symm

/-- The last of them. -/
example := C05_round_constants 63 (by decide)

/-- **C05.** Initial word `t` is the first 32 bits of the fractional part of the square root of the `t`-th prime. -/
theorem C05_initial_words (t : ℕ) (ht : t < 8) :
    (H[t].toNat : ℤ) = ⌊Int.fract ((Nat.nth Nat.Prime t : ℝ) ^ (1 / 2 : ℝ)) * 2 ^ 32⌋ := by
  obtain ⟨h1, h2, h3, h4⟩ := H_root_table ⟨t, ht⟩
  rw [← primes_eq t (by omega)]
  exact (floor_fract_root 2 _ _ _ (by decide) h1 h2 h3 h4).symm

/-- The last of them. -/
example := C05_initial_words 7 (by decide)

end Verif.Props.Sha256
